import Verif.Recon
/-!
# Which blocks of the old data are asked for, in which order (specification)
-/

namespace Drpm

/-- The blocks of 8192 bytes that have a byte of the range of `n` bytes at `q`. -/
def rangeBlocks (q n : Nat) : List Nat :=
  if n = 0 then [] else List.range' (q / 8192) ((q + n - 1) / 8192 - q / 8192 + 1)

/-- The blocks needed for the external copies, in the order in which they are needed. The first
    number of a copy is relative to the end of the one before, `p`. -/
def blocksAsked : Nat → List (Nat × Nat) → List Nat
  | _, [] => []
  | p, (w, n) :: rest =>
    rangeBlocks ((p : Int) + s32 w).toNat n ++ blocksAsked (((p : Int) + s32 w).toNat + n) rest

/-- A list without repetitions: what comes again is left out. -/
def firstUses : List Nat → List Nat
  | [] => []
  | x :: xs => x :: (firstUses xs).filter (fun y => y ≠ x)

/-- The copies never go back. -/
def Forward (ext : List (Nat × Nat)) : Prop := ∀ x ∈ ext, 0 ≤ s32 x.1

end Drpm
