import Verif.Basic
/-!
# src/drpm_utils.c and the arithmetic macros of src/drpm_private.h
-/

namespace Drpm

/-- src/drpm_utils.c:37-40 `parse_be16`. The C expression shifts an `int`; operands are bytes so
    nothing is lost. -/
def parseBe16 (b0 b1 : UInt8) : Nat :=
  (0xFF00 &&& (b0.toNat <<< 8)) ||| (0x00FF &&& b1.toNat)

/-- src/drpm_utils.c:43-49 `parse_be32`. `buffer[0] << 24` is a shift of an `int` into its sign
    bit for bytes of 0x80 and more, which every supported compiler defines as the bit pattern
    used here. -/
def parseBe32 (b0 b1 b2 b3 : UInt8) : Nat :=
  (0xFF000000 &&& (b0.toNat <<< 24)) |||
  (0x00FF0000 &&& (b1.toNat <<< 16)) |||
  (0x0000FF00 &&& (b2.toNat <<< 8)) |||
  (0x000000FF &&& b3.toNat)

/-- src/drpm_utils.c:52-62 `parse_be64`. -/
def parseBe64 (b0 b1 b2 b3 b4 b5 b6 b7 : UInt8) : Nat :=
  (0xFF00000000000000 &&& (b0.toNat <<< 56)) |||
  (0x00FF000000000000 &&& (b1.toNat <<< 48)) |||
  (0x0000FF0000000000 &&& (b2.toNat <<< 40)) |||
  (0x000000FF00000000 &&& (b3.toNat <<< 32)) |||
  (0x00000000FF000000 &&& (b4.toNat <<< 24)) |||
  (0x0000000000FF0000 &&& (b5.toNat <<< 16)) |||
  (0x000000000000FF00 &&& (b6.toNat <<< 8)) |||
  (0x00000000000000FF &&& b7.toNat)

/-- src/drpm_utils.c:65-71 `create_be32`; assignment to `unsigned char` keeps the low byte. -/
def createBe32 (n : Nat) : Bytes :=
  [UInt8.ofNat (n >>> 24), UInt8.ofNat (n >>> 16), UInt8.ofNat (n >>> 8), UInt8.ofNat n]

/-- src/drpm_utils.c:74-84 `create_be64`. -/
def createBe64 (n : Nat) : Bytes :=
  [UInt8.ofNat (n >>> 56), UInt8.ofNat (n >>> 48), UInt8.ofNat (n >>> 40), UInt8.ofNat (n >>> 32),
   UInt8.ofNat (n >>> 24), UInt8.ofNat (n >>> 16), UInt8.ofNat (n >>> 8), UInt8.ofNat n]

/-- `parse_be32` applied to a buffer: the first four bytes, undefined if there are fewer. -/
def be32At : Bytes → Out Nat
  | b0 :: b1 :: b2 :: b3 :: _ => .ok (parseBe32 b0 b1 b2 b3)
  | _ => .ub

/-- `parse_be64` applied to a buffer. -/
def be64At : Bytes → Out Nat
  | b0 :: b1 :: b2 :: b3 :: b4 :: b5 :: b6 :: b7 :: _ =>
      .ok (parseBe64 b0 b1 b2 b3 b4 b5 b6 b7)
  | _ => .ub

/-- src/drpm_utils.c:100 the table `digits`. -/
def hexDigits : Bytes :=
  [48, 49, 50, 51, 52, 53, 54, 55, 56, 57, 97, 98, 99, 100, 101, 102]

/-- src/drpm_utils.c:104-107, the two characters for one byte: `digits[b >> 4 & 0x0F]` and
    `digits[b & 0x0F]`. The index is below 16, so `getD` never uses its default. -/
def hexByte (b : UInt8) : Bytes :=
  [hexDigits.getD ((b.toNat >>> 4) &&& 0x0F) 0, hexDigits.getD (b.toNat &&& 0x0F) 0]

/-- src/drpm_utils.c:98-108 `dump_hex`. The C loop runs from the last byte to the first and writes
    each pair at its own position; the result is the concatenation of the pairs. -/
def dumpHex (bs : Bytes) : Bytes := (bs.map hexByte).flatten

/-- src/drpm_utils.c:136-142, one step of `parse_hexnum`: `isdigit`, then `isxdigit` with
    `toupper`. Characters of 0x80 and more are treated as non-digits (as glibc does; strictly,
    passing a negative `char` to `isdigit` is undefined). -/
def hexDigitVal (c : UInt8) : Option Nat :=
  if 48 ≤ c.toNat ∧ c.toNat ≤ 57 then some (c.toNat - 48)
  else if 65 ≤ c.toNat ∧ c.toNat ≤ 70 then some (c.toNat - 65 + 0xA)
  else if 97 ≤ c.toNat ∧ c.toNat ≤ 102 then some (c.toNat - 32 - 65 + 0xA)
  else none

/-- src/drpm_utils.c:130-145 `parse_hexnum`: `none` is the -1 return. At most 16 digits are ever
    passed, so `size_t` does not wrap. -/
def parseHexnum (str : Bytes) : Option Nat :=
  str.foldl (fun acc c => match acc with
    | none => none
    | some r => (hexDigitVal c).map (fun d => r * 16 + d)) (some 0)

/-- src/drpm_utils.c:114-128 `parse_hex`: `none` is the -1 return, otherwise the bytes stored.
    `count = strlen / 2`, so one odd trailing character is not looked at. -/
def parseHex : Bytes → Option Bytes
  | c0 :: c1 :: rest =>
    match parseHexnum [c0, c1] with
    | none => none
    | some v => (parseHex rest).map (UInt8.ofNat v :: ·)
  | _ => some []

/-- src/drpm_utils.c:147-150 `parse_md5`. -/
def parseMd5 (s : Bytes) : Option Bytes :=
  match parseHex s with
  | some d => if d.length = 16 then some d else none
  | none => none

/-- src/drpm_utils.c:152-155 `parse_sha256`. -/
def parseSha256 (s : Bytes) : Option Bytes :=
  match parseHex s with
  | some d => if d.length = 32 then some d else none
  | none => none

/-- src/drpm_private.h:57 `PADDING(offset, align)`. -/
def padding (offset align : Nat) : Nat := (align - offset % align) % align

/-- src/drpm_private.h:65 `CPIO_PADDING(offset)`. -/
def cpioPadding (offset : Nat) : Nat := padding offset 4

/-- src/drpm_private.h:53 `TWOS_COMPLEMENT(x)` on a `uint32_t`: `~x + 1`. -/
def twosComplement32 (x : Nat) : Nat := ((2^32 - 1 - x % 2^32) + 1) % 2^32

/-- src/drpm_private.h:55 `UNSIGNED_SUM_OVERFLOWS(x, y)` on 64-bit operands. -/
def sumOverflows64 (x y : Nat) : Bool := (x + y) % 2^64 < y

/-- src/drpm_utils.c:158-170 `resize`: the new capacity in elements of a growing array that holds
    `count` elements and had room for `cap`. -/
def resizeCap (threshold count cap : Nat) : Nat :=
  if count % threshold = 0 then count + threshold else cap

end Drpm
