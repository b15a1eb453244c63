import Verif.Basic
/-!
# The compressed file order, as a format

A specification, independent of the code: half bytes make numbers, numbers make runs of files.
-/

namespace Drpm

/-- The half bytes of a string, the upper half first. -/
def halfBytes (bs : Bytes) : List Nat := bs.flatMap fun b => [b.toNat / 16, b.toNat % 16]

/-- Half bytes, split into numbers: the digits (three bits each) of a number up to and including the first
    half byte below 8. `cur` are the digits already seen; the second component is what is left in the end,
    the digits of a number without its last one. -/
def splitDigits : List Nat → List Nat → List (List Nat) × List Nat
  | cur, [] => ([], cur)
  | cur, d :: ds =>
    if d < 8 then ((cur ++ [d]) :: (splitDigits [] ds).1, (splitDigits [] ds).2) else splitDigits (cur ++ [d - 8]) ds

/-- The number that digits of three bits stand for, the lowest first. -/
def digitsValue : List Nat → Nat
  | [] => 0
  | d :: ds => d + 8 * digitsValue ds

/-- What the next number of an order is: the length of a run, the length of a gap, or the place where the
    next run starts. -/
inductive Next where
  | run | gap | place

/-- The runs (first file, number of files) that numbers stand for. A zero says that a place follows, runs
    and gaps take turns otherwise. Places are kept in 64 bits. -/
def orderRuns : Next → Nat → List Nat → List (Nat × Nat)
  | _, _, [] => []
  | .place, _, p :: ns => orderRuns .run p ns
  | .run, pos, n :: ns => if n = 0 then orderRuns .place pos ns else (pos, n) :: orderRuns .gap (pos + n) ns
  | .gap, pos, n :: ns => if n = 0 then orderRuns .place pos ns else orderRuns .run ((pos + n) % 2^64) ns

/-- The digits of the numbers in an order, and what is left. -/
def orderDigits (bs : Bytes) : List (List Nat) := (splitDigits [] (halfBytes bs)).1
def orderLeft (bs : Bytes) : List Nat := (splitDigits [] (halfBytes bs)).2

/-- The runs in an order. -/
def runsOf (bs : Bytes) : List (Nat × Nat) := orderRuns .run 0 ((orderDigits bs).map fun g => digitsValue g % 2^64)

/-- The files in the first `k` runs. -/
def filesBefore (runs : List (Nat × Nat)) (k : Nat) : Nat := ((runs.take k).map (·.2)).sum

/-- The files that runs list. -/
def filesOf (runs : List (Nat × Nat)) : List Nat := runs.flatMap fun r => List.range' r.1 r.2

/-- Every number has at most 22 digits. -/
def ShortNumbers (bs : Bytes) : Prop := (∀ g ∈ orderDigits bs, g.length ≤ 22) ∧ (orderLeft bs).length ≤ 22

/-- The decoder keeps run `k`, for a package of `fc` files: there is room left for it, and it does not go
    beyond the file after the last one. -/
def RunKept (fc : Nat) (runs : List (Nat × Nat)) (k : Nat) (r : Nat × Nat) : Prop :=
  filesBefore runs k + r.2 ≤ fc ∧ r.1 + r.2 ≤ fc + 1

/-- Run `k` is the first one that is too long for the room that is left, and it does not start behind the
    files stored so far. -/
def RunOverflows (fc : Nat) (runs : List (Nat × Nat)) (k : Nat) (r : Nat × Nat) : Prop :=
  (∀ (j : Nat) q, j < k → runs[j]? = some q → q.1 + q.2 ≤ fc + 1) ∧
  filesBefore runs k ≤ fc ∧ r.1 ≤ filesBefore runs k ∧ fc < filesBefore runs k + r.2

/-- An order that does no harm when it is expanded for a package of `fc` files, whether it is accepted or
    not. -/
structure OrderTame (fc : Nat) (bs : Bytes) : Prop where
  short : ShortNumbers bs
  room : ∀ (k : Nat) r, (runsOf bs)[k]? = some r → ¬ RunOverflows fc (runsOf bs) k r
  inside : (∀ (k : Nat) r, (runsOf bs)[k]? = some r → RunKept fc (runsOf bs) k r) → orderLeft bs = [] →
    ∀ r ∈ runsOf bs, r.1 + r.2 ≤ fc

end Drpm
