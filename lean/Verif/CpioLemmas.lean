import Verif.Cpio
import Verif.UtilsLemmas
import Verif.SeqLemmas
/-!
# Lemmas about CPIO headers, archive reads and the growing archive buffer
-/

namespace Drpm

/-! ## Hexadecimal fields -/

theorem hexPad_length (k : Nat) : ∀ n, (hexPad k n).length = k := by
  induction k with
  | zero => intro n; rfl
  | succ k ih => intro n; simp [hexPad, ih]

theorem hexDigitVal_digit : ∀ d < 16, hexDigitVal (hexDigits.getD d 0) = some d := by decide +kernel

theorem parseHexnum_snoc (a : Bytes) (c : UInt8) :
    parseHexnum (a ++ [c]) = match parseHexnum a with
      | none => none
      | some r => (hexDigitVal c).map (fun d => r * 16 + d) := by
  simp only [parseHexnum, List.foldl_append, List.foldl_cons, List.foldl_nil]
  split <;> split <;> simp_all

theorem parseHexnum_hexPad (k : Nat) : ∀ n, parseHexnum (hexPad k n) = some (n % 16^k) := by
  induction k with
  | zero => intro n; simp [hexPad, parseHexnum, Nat.mod_one]
  | succ k ih =>
    intro n
    rw [hexPad, parseHexnum_snoc, ih]
    simp only
    rw [hexDigitVal_digit _ (Nat.mod_lt _ (by decide))]
    simp only [Option.map_some, Option.some.injEq]
    rw [Nat.pow_succ, Nat.mul_comm (16^k) 16, Nat.mod_mul]
    omega

/-- Piece `i` of a concatenation of pieces of equal length. -/
theorem slice_flatten {w : Nat} : ∀ (l : List Bytes) (i : Nat) (x : Bytes), (∀ y ∈ l, y.length = w) →
    l[i]? = some x → slice l.flatten (w * i) w = x := by
  intro l
  induction l with
  | nil => intro i x _ h; simp at h
  | cons y l ih =>
    intro i x hw h
    have hy : y.length = w := hw y (by simp)
    cases i with
    | zero =>
      simp only [List.getElem?_cons_zero, Option.some.injEq] at h
      subst h
      simp only [slice, Nat.mul_zero, List.drop_zero, List.flatten_cons]
      rw [List.take_append_of_le_length (by omega), List.take_of_length_le (by omega)]
    | succ i =>
      simp only [List.getElem?_cons_succ] at h
      rw [← ih i x (fun z hz => hw z (by simp [hz])) h]
      simp only [slice, List.flatten_cons]
      rw [List.drop_append, List.drop_eq_nil_of_le (by rw [hy, Nat.mul_add]; omega), List.nil_append, hy]
      congr 2
      rw [Nat.mul_add]; omega

/-- The fields of a header in the order they are written. -/
def hdrFields (h : CpioHdr) : List Nat :=
  [h.ino, h.mode, h.uid, h.gid, h.nlink, h.mtime, h.filesize, h.devmajor, h.devminor, h.rdevmajor,
   h.rdevminor, h.namesize, 0]

theorem cpioHeaderWrite_fields (h : CpioHdr) :
    cpioHeaderWrite h = cpioMagic ++ ((hdrFields h).map (hexPad 8)).flatten := by
  simp only [cpioHeaderWrite, hdrFields, List.map_cons, List.map_nil, List.flatten_cons, List.flatten_nil,
    List.append_assoc, List.append_nil]

theorem cpioHeaderWrite_length (h : CpioHdr) : (cpioHeaderWrite h).length = 110 := by
  simp only [cpioHeaderWrite, List.length_append, hexPad_length]
  rfl

theorem hexField_write (h : CpioHdr) (i v : Nat) (hv : (hdrFields h)[i]? = some v) :
    hexField (cpioHeaderWrite h) i = .ok (v % 2^32) := by
  have hi : i < 13 := by
    have := (List.getElem?_eq_some_iff.mp hv).1
    simpa [hdrFields] using this
  unfold hexField
  rw [rdBlk_ok (by rw [cpioHeaderWrite_length]; omega), Out.bind_ok]
  have e : slice (cpioHeaderWrite h) (6 + 8 * i) 8 = hexPad 8 v := by
    rw [cpioHeaderWrite_fields]
    rw [← slice_flatten ((hdrFields h).map (hexPad 8)) i (hexPad 8 v)
      (by intro y hy; simp only [List.mem_map] at hy; obtain ⟨z, _, rfl⟩ := hy; exact hexPad_length 8 z)
      (by rw [List.getElem?_map, hv]; rfl)]
    simp only [slice]
    rw [List.drop_append, List.drop_eq_nil_of_le (by simp [cpioMagic]), List.nil_append]
    congr 2
    simp [cpioMagic]
  rw [e, parseHexnum_hexPad]

/-- Values that fit the fields of the structure. -/
structure CpioHdr.Fits (h : CpioHdr) : Prop where
  ino : h.ino < 2^16
  mode : h.mode < 2^16
  uid : h.uid < 2^16
  gid : h.gid < 2^16
  nlink : h.nlink < 2^16
  mtime : h.mtime < 2^32
  filesize : h.filesize < 2^32
  devmajor : h.devmajor < 2^8
  devminor : h.devminor < 2^8
  rdevmajor : h.rdevmajor < 2^8
  rdevminor : h.rdevminor < 2^8
  namesize : h.namesize < 2^16

theorem cpioHeaderRead_write (h : CpioHdr) (hf : h.Fits) : cpioHeaderRead (cpioHeaderWrite h) = .ok h := by
  obtain ⟨h1, h2, h3, h4, h5, h6, h7, h8, h9, h10, h11, h12⟩ := hf
  unfold cpioHeaderRead
  rw [if_neg (by
    rw [cpioHeaderWrite_fields, List.take_append_of_le_length (by simp [cpioMagic])]
    simp [cpioMagic])]
  rw [hexField_write h 0 _ rfl, Out.bind_ok, hexField_write h 1 _ rfl, Out.bind_ok,
    hexField_write h 2 _ rfl, Out.bind_ok, hexField_write h 3 _ rfl, Out.bind_ok,
    hexField_write h 4 _ rfl, Out.bind_ok, hexField_write h 5 _ rfl, Out.bind_ok,
    hexField_write h 6 _ rfl, Out.bind_ok, hexField_write h 7 _ rfl, Out.bind_ok,
    hexField_write h 8 _ rfl, Out.bind_ok, hexField_write h 9 _ rfl, Out.bind_ok,
    hexField_write h 10 _ rfl, Out.bind_ok, hexField_write h 11 _ rfl, Out.bind_ok]
  obtain ⟨a, b, c, d, e, f, g, i, j, k, l, m⟩ := h
  simp only at h1 h2 h3 h4 h5 h6 h7 h8 h9 h10 h11 h12
  simp only [Out.ok.injEq, CpioHdr.mk.injEq]
  refine ⟨?_, ?_, ?_, ?_, ?_, ?_, ?_, ?_, ?_, ?_, ?_, ?_⟩ <;> omega

/-! ## Archive reads -/

theorem archiveRead_ok {archive : Bytes} {off n : Nat} (hl : archive.length < 2^63) (h : off + n ≤ archive.length) :
    archiveRead archive off n = .ok (slice archive off n, off + n) := by
  unfold archiveRead
  rw [Nat.mod_eq_of_lt (by omega), if_neg (by omega), rdBlk_ok h, Out.bind_ok]

theorem archiveRead_fail {archive : Bytes} {off n : Nat} (hl : archive.length < 2^63) (ho : off ≤ archive.length)
    (hn : n < 2^63) (h : archive.length < off + n) : archiveRead archive off n = .err .format := by
  unfold archiveRead
  rw [Nat.mod_eq_of_lt (by omega), if_pos (by omega)]

theorem archiveRead_inv {archive : Bytes} {off n o : Nat} {b : Bytes} (hl : archive.length < 2^63)
    (ho : off ≤ archive.length) (hn : n < 2^63) (h : archiveRead archive off n = .ok (b, o)) :
    off + n ≤ archive.length ∧ b = slice archive off n ∧ o = off + n := by
  by_cases hc : off + n ≤ archive.length
  · rw [archiveRead_ok hl hc] at h
    simp only [Out.ok.injEq, Prod.mk.injEq] at h
    exact ⟨hc, h.1.symm, h.2.symm⟩
  · rw [archiveRead_fail hl ho hn (by omega)] at h
    cases h

/-! ## The growing archive buffer -/

theorem padding_lt (o : Nat) : padding o 65536 < 65536 := Nat.mod_lt _ (by decide)

/-- The allocation is always the length rounded up to a multiple of 65536. -/
def CpioBuf.Ok (c : CpioBuf) : Prop := c.data.length < 2^64 ∧ c.alloc = c.data.length + padding c.data.length 65536

theorem cpioExtend_spec {c : CpioBuf} (hc : c.Ok) (piece : Bytes) (hp : piece.length < 2^64) :
    cpioExtend c piece = .err .overflow ∧ 2^64 ≤ c.data.length + piece.length + 65535 ∨
    ∃ c', cpioExtend c piece = .ok c' ∧ c'.Ok ∧ c'.data = c.data ++ piece := by
  obtain ⟨h1, h2⟩ := hc
  unfold cpioExtend
  simp only
  split
  · left
    rename_i h
    refine ⟨rfl, ?_⟩
    have := padding_lt ((c.data.length + piece.length) % 2^64)
    simp only [sumOverflows64, decide_eq_true_eq] at h
    omega
  · right
    rename_i h
    simp only [sumOverflows64, decide_eq_true_eq, not_or, Nat.not_lt] at h
    have e : (c.data.length + piece.length) % 2^64 = c.data.length + piece.length := by omega
    rw [e] at h ⊢
    have p1 : padding c.data.length 65536 = (65536 - c.data.length % 65536) % 65536 := rfl
    have p2 : padding (c.data.length + piece.length) 65536 =
      (65536 - (c.data.length + piece.length) % 65536) % 65536 := rfl
    split
    · rw [if_pos (by omega)]
      exact ⟨_, rfl, ⟨by simp only [List.length_append]; omega, by simp only [List.length_append]⟩, rfl⟩
    · rw [if_pos (by omega)]
      refine ⟨_, rfl, ⟨by simp only [List.length_append]; omega, ?_⟩, rfl⟩
      simp only [List.length_append]
      omega

theorem cpioExtend_inv {c c' : CpioBuf} {piece : Bytes} (h : cpioExtend c piece = .ok c') : c'.data = c.data ++ piece := by
  unfold cpioExtend at h
  simp only at h
  split at h
  · cases h
  · split at h <;> split at h <;> cases h <;> rfl

theorem extendIf_inv {copy : Bool} {c c' : CpioBuf} {piece : Bytes} (h : extendIf copy c piece = .ok c') :
    c'.data = c.data ++ (if copy then piece else []) := by
  unfold extendIf at h
  cases copy
  · simp only [Bool.false_eq_true, if_false, Out.ok.injEq] at h; subst h; simp
  · simp only [if_true] at h ⊢; exact cpioExtend_inv h

/-! ## Device numbers -/

theorem devMajor_16 (d : Nat) (h : d < 2^16) : devMajor d = d / 256 := by
  unfold devMajor
  have e : (d >>> 32) = 0 := by rw [Nat.shiftRight_eq_div_pow]; omega
  rw [e, Nat.zero_and, Nat.or_zero, show (0xfff : Nat) = 2^12 - 1 from rfl, Nat.and_two_pow_sub_one_eq_mod,
    Nat.shiftRight_eq_div_pow]
  omega

theorem devMinor_16 (d : Nat) (h : d < 2^16) : devMinor d = d % 256 := by
  unfold devMinor
  have e : (d >>> 12) < 16 := by rw [Nat.shiftRight_eq_div_pow]; omega
  have e2 : ∀ x < 16, x &&& 0xffffff00 = 0 := by decide
  rw [e2 _ e, Nat.or_zero, show (0xff : Nat) = 2^8 - 1 from rfl, Nat.and_two_pow_sub_one_eq_mod]

theorem makeDev_8 (a b : Nat) (ha : a < 256) (hb : b < 256) : makeDev a b = a * 256 + b := by
  unfold makeDev
  have e1 : a &&& 0xfff = a := by
    rw [show (0xfff : Nat) = 2^12 - 1 from rfl, Nat.and_two_pow_sub_one_eq_mod]; omega
  have e2 : ∀ x < 256, x &&& 0xfffff000 = 0 := by decide +kernel
  have e3 : ∀ x < 256, x &&& 0xffffff00 = 0 := by decide +kernel
  have e4 : b &&& 0xff = b := by
    rw [show (0xff : Nat) = 2^8 - 1 from rfl, Nat.and_two_pow_sub_one_eq_mod]; omega
  rw [e1, e2 a ha, e3 b hb, e4, Nat.zero_shiftLeft, Nat.zero_shiftLeft, Nat.or_zero, Nat.or_zero]
  have e5 := Nat.shiftLeft_add_eq_or_of_lt (show b < 2^8 by omega) a
  rw [← e5, Nat.shiftLeft_eq]

/-- A 16-bit device number survives being split into the 8-bit fields of a CPIO header. -/
theorem makeDev_split (d : Nat) (h : d < 2^16) : makeDev (devMajor d % 2^8) (devMinor d % 2^8) = d := by
  rw [devMajor_16 d h, devMinor_16 d h, makeDev_8 _ _ (Nat.mod_lt _ (by decide)) (Nat.mod_lt _ (by decide))]
  omega

end Drpm
