import Verif.Names
/-!
# Calls that are interrupted, fail, and are repeated

src/drpm.c:292-494 `drpm_make` and 498-781 `drpm_apply` on names (`Verif/Names.lean`), called again and again. A call
may end by itself, with or without an error, or the process may be killed while it runs. In the latter
case nothing is assumed about what is then in the output files: they may be missing, cut short, or hold
blocks that were never written.
-/

namespace Drpm

/-- Anything, or nothing, is in the file of a name. -/
def Vol.put (v : Vol) (name : Bytes) (x : Option Bytes) : Vol :=
  { v with data := fun i => if i = v.file name then x else v.data i }

/-- A call of `drpm_make` that is killed, leaving `x` in the delta and `y` in the sequence file, or ends by
    itself with the faults `f`. -/
inductive MakeAttempt where
  | killed (x y : Option Bytes)
  | ended (f : MakeFaults) (sigLen : Nat) (junk : Bytes)

/-- The files after it. -/
def MakeAttempt.after {η σ τ : Type} (w : World η σ τ) (o : Opts Bytes) (old new : Option Bytes) (delta : Bytes) (v : Vol) :
    MakeAttempt → Vol
  | .killed x y => match o.seqfile with
    | none => v.put delta x
    | some s => (v.put delta x).put s y
  | .ended f sigLen junk => (makeNamed w f sigLen junk o v old new (some delta)).2

/-- A call of `drpm_apply` that is killed, leaving `x` in the new package, or ends by itself with the faults `f`;
    `cleanup` is what the process did before. -/
inductive ApplyAttempt where
  | killed (x : Option Bytes)
  | ended (f : ApplyFaults) (creatable : Bool) (junk : Bytes) (cleanup : Nat)

/-- The files after it. -/
def ApplyAttempt.after {η σ τ : Type} (w : World η σ τ) (old delta out : Bytes) (v : Vol) : ApplyAttempt → Vol
  | .killed x => v.put out x
  | .ended f creatable junk cleanup => (applyNamed w f creatable junk v old delta out cleanup).2

end Drpm
