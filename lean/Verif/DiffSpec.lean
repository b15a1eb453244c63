import Verif.Diff
/-!
# Specification for the copy lists of a delta

Small and independent of the model's loops.
-/

namespace Drpm

/-- Walking a list of external copies by the documentation of the format: each copy first moves the
    read position by a signed 32-bit amount, then reads `len` bytes. Yields the bytes read; `none`
    if a copy leaves the old payload. -/
def walkCopies (old : Bytes) : Nat → List (Nat × Nat) → Option Bytes
  | _, [] => some []
  | p, (w, len) :: rest =>
    let q : Int := p + s32 w
    if 0 ≤ q ∧ q.toNat + len ≤ old.length then
      (walkCopies old (q.toNat + len) rest).map (slice old q.toNat len ++ ·)
    else none

/-- The bytes of the old payload that a list of diff regions refers to, in order. -/
def regionBytes (old : Bytes) (rs : List DiffCopy) : Bytes :=
  rs.flatMap fun r => slice old r.oldOff r.oldLen

end Drpm
