import Verif.Basic
/-!
# On-disk compression codes, src/drpm_deltarpm.c
-/

namespace Drpm

/-- `DRPM_COMP_*`, src/drpm.h. LZIP and ZSTD are build-time options; the model is the build with
    both enabled. -/
inductive Comp where
  | none | gzip | bzip2 | lzma | xz | lzip | zstd
deriving DecidableEq, Repr

/-- The integer value of a compression type in the API, src/drpm.h. -/
def Comp.code : Comp → Nat
  | .none => 0 | .gzip => 1 | .bzip2 => 2 | .lzma => 3 | .xz => 4 | .lzip => 5 | .zstd => 6

/-- src/drpm_deltarpm.c:44-77 `deltarpm_decode_comp`: API compression code and level. -/
def decodeComp (c : Nat) : Option (Nat × Nat) :=
  let lvl := (c >>> 8) &&& 255
  match c &&& 255 with
  | 0 => some (0, lvl)
  | 1 => some (1, lvl)
  | 3 => some (1, lvl)
  | 2 => some (2, lvl)
  | 4 => some (2, lvl)
  | 5 => some (3, lvl)
  | 6 => some (4, lvl)
  | 7 => some (6, lvl)
  | _ => none

/-- src/drpm_deltarpm.c:80-108 `deltarpm_encode_comp`: `comp | level << 8`, for 16-bit arguments. -/
def encodeComp (comp level : Nat) : Option Nat :=
  match comp with
  | 0 => some (0 ||| (level <<< 8))
  | 1 => some (1 ||| (level <<< 8))
  | 2 => some (2 ||| (level <<< 8))
  | 3 => some (5 ||| (level <<< 8))
  | 4 => some (6 ||| (level <<< 8))
  | 6 => some (7 ||| (level <<< 8))
  | _ => none

end Drpm
