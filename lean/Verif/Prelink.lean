import Verif.Utils
/-!
# Detection of prelinked files: src/drpm_apply.c:486-621
-/

namespace Drpm

/-- src/drpm_apply.c:488-493 `elf16` at position `i` of a buffer. -/
def elf16 (b : Bytes) (i : Nat) (le : Bool) : Out Nat := do
  let b0 ← rd b i
  let b1 ← rd b (i + 1)
  .ok (if le then b0.toNat ||| b1.toNat <<< 8 else parseBe16 b0 b1)

/-- src/drpm_apply.c:495-500 `elf32`. (`buf[3] << 24` may shift into the sign bit of an `int`; every
    compiler keeps the 32 bits.) -/
def elf32 (b : Bytes) (i : Nat) (le : Bool) : Out Nat := do
  let b0 ← rd b i
  let b1 ← rd b (i + 1)
  let b2 ← rd b (i + 2)
  let b3 ← rd b (i + 3)
  .ok (if le then b0.toNat ||| b1.toNat <<< 8 ||| b2.toNat <<< 16 ||| b3.toNat <<< 24 else parseBe32 b0 b1 b2 b3)

/-- src/drpm_apply.c:510-513: the low part; in the little-endian case it is an `int` that is
    sign-extended to 64 bits. -/
def elfLow (b : Bytes) (i : Nat) (le : Bool) : Out Nat := do
  let v ← elf32 b i le
  .ok (if le && decide (2^31 ≤ v) then v + (2^64 - 2^32) else v)

/-- src/drpm_apply.c:502-514 `elf64`: `UINT64_MAX` if the high half is not zero. -/
def elf64 (b : Bytes) (i : Nat) (le is64 : Bool) : Out Nat :=
  if is64 then do
    let hi ← elf32 b (if le then i + 4 else i) le
    if hi ≠ 0 then .ok (2^64 - 1) else elfLow b (if le then i else i + 4) le
  else elfLow b i le

/-- `pread(fd, buf, n, off)` with `off` as a 64-bit pattern: fails for negative offsets, reads at
    most 0x7ffff000 bytes. The result is what was read if all `n` bytes were, else `none`. -/
def preadAll (file : Bytes) (n off : Nat) : Option Bytes :=
  if 2^63 ≤ off then none
  else if min (min n (file.length - off)) 0x7ffff000 = n then some ((file.drop off).take n) else none

/-- ".gnu.prelink_undo" with its NUL. -/
def undoName : Bytes := [46, 103, 110, 117, 46, 112, 114, 101, 108, 105, 110, 107, 95, 117, 110, 100, 111, 0]

/-- src/drpm_apply.c:604-610: the loop over the section headers from section `i`, `n` are left. -/
def undoLoop (sects str : Bytes) (ssiz : Nat) (le : Bool) : Nat → Nat → Out Bool
  | 0, _ => .ok false
  | n + 1, i => do
    let o ← elf32 sects (i * ssiz) le
    if o > str.length then undoLoop sects str ssiz le n (i + 1)
    else if o + 18 ≤ str.length ∧ slice str o 18 = undoName then .ok true
    else undoLoop sects str ssiz le n (i + 1)

/-- src/drpm_apply.c:582-610: from the section headers on. When one of the tests in lines 583-595
    fails, `cleanup` frees `strsect`, which then points into `sects`: undefined. -/
def undoSects (file sects : Bytes) (le is64 : Bool) (ssiz snum stridx : Nat) : Out Bool := do
  let t ← elf32 sects (stridx * ssiz + 4) le
  if t ≠ 3 then .ub else do
  let soff ← elf64 sects (stridx * ssiz + if is64 then 24 else 16) le is64
  let slen64 ← elf64 sects (stridx * ssiz + if is64 then 32 else 20) le is64
  let slen := slen64 % 2^32
  if soff = 2^64 - 1 ∨ slen = 2^32 - 1 ∨ 2^31 ≤ slen then .ub else
  match preadAll file slen soff with
  | none => .ok false
  | some str => undoLoop sects str ssiz le snum 0

/-- src/drpm_apply.c:554-580: from the ELF header to the section headers. -/
def undoHeader (file buf : Bytes) (le is64 : Bool) : Out Bool := do
  let soff ← elf64 buf (if is64 then 40 else 32) le is64
  if soff = 2^64 - 1 then .ok false else do
  let ssiz ← elf16 buf (if is64 then 0x40 - 6 else 0x34 - 6) le
  if ssiz < (if is64 then 64 else 40) ∨ ssiz ≥ 32768 then .ok false else do
  let snum ← elf16 buf (if is64 then 0x40 - 4 else 0x34 - 4) le
  let stridx ← elf16 buf (if is64 then 0x40 - 2 else 0x34 - 2) le
  if stridx ≥ snum then .ok false else
  match preadAll file (snum * ssiz) soff with
  | none => .ok false
  | some sects => undoSects file sects le is64 ssiz snum stridx

/-- src/drpm_apply.c:516-621 `is_prelinked`; `buf` is what was read from the start of `file`.
    Allocations are taken to succeed. -/
def isPrelinked (file buf : Bytes) : Out Bool :=
  if buf.length < 0x34 ∨ buf.take 4 ≠ [0x7F, 69, 76, 70] then .ok false else do
  let c ← rd buf 4
  let e ← rd buf 5
  if c = 2 ∧ buf.length < 0x40 then .ok false else
  undoHeader file buf (e != 2) (c == 2)

end Drpm
