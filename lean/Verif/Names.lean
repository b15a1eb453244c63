import Verif.WriteFault
import Verif.RpmFile
/-!
# The files behind the names: src/drpm.c:292-494 `drpm_make` and 498-781 `drpm_apply`

The functions take names of files. Two names may stand for the same file (links, or the same name twice), so what is
written under one of them may change what is read under another. Here the order in which the files are
read and written is that of the code. Names are not removed, renamed or linked during a call.
-/

namespace Drpm

/-- The files of a system: the file each name stands for once it exists, and what is in each file (`none`: it does not exist). -/
structure Vol where
  file : Bytes → Nat
  data : Nat → Option Bytes

/-- What is in the file of a name. -/
def Vol.get (v : Vol) (name : Bytes) : Option Bytes := v.data (v.file name)

/-- Opening a file and reading it: src/drpm_read.c:446-447, src/drpm_rpm.c:287-288. -/
def Vol.read (v : Vol) (name : Bytes) : Out Bytes :=
  match v.get name with
  | none => .err .io
  | some b => .ok b

/-- The file of a name has new contents. -/
def Vol.set (v : Vol) (name b : Bytes) : Vol :=
  { v with data := fun i => if i = v.file name then some b else v.data i }

/-- What a call leaves in the file of a name; `junk` where nothing is said about it. -/
def Vol.leave (v : Vol) (name junk : Bytes) : Left → Vol
  | .untouched => v
  | .written b => v.set name b
  | .partly => v.set name junk

/-- The lead of the package the delta leads to; it is copied to standard deltas (src/drpm_write.c:209-229). -/
def Vol.lead (v : Vol) (old new : Option Bytes) : Bytes :=
  match new with
  | some n => ((v.get n).getD []).take 96
  | none =>
    match old with
    | some n => ((v.get n).getD []).take 96
    | none => []

/-- src/drpm.c:292-494 `drpm_make` on names. Packages are read up to their ends (lines 352-373) before the
    delta is created and written (line 468), and the delta is closed (src/drpm_write.c:269) before the
    sequence file is created (line 472). The files of the options `oldrpmprint` and `oldpatchrpm` are not
    among the names (`w.unpatched` is what they say). `f` are the faults, `sigLen` is the length of the
    signature of the delta. -/
def makeNamed {η σ τ : Type} (w : World η σ τ) (f : MakeFaults) (sigLen : Nat) (junk : Bytes) (o : Opts Bytes) (v : Vol)
    (old new delta : Option Bytes) : Out Unit × Vol :=
  match delta with
  | none => (.err .args, v)
  | some delta =>
    let r := drpmMakeOn f sigLen (w.makeEnv (v.lead old new)) o
      (old.map (fun n => v.read n >>= rpmOf w.lib w.U true)) (new.map (fun n => v.read n >>= rpmOf w.lib w.U true))
    (r.1, (v.leave delta junk r.2.1).leave (o.seqfile.getD []) junk r.2.2)

/-- src/drpm.c:498-781 `drpm_apply` on names: the new package is created, and emptied if it exists (line 545),
    before the delta (line 549) and the old package (line 556) are read. -/
def applyNamed {η σ τ : Type} (w : World η σ τ) (f : ApplyFaults) (creatable : Bool) (junk : Bytes) (v : Vol)
    (old delta out : Bytes) (cleanup : Nat) : Out Unit × Vol :=
  if creatable = false then (.err .io, v)
  else
    let created := v.set out []
    let r := drpmApplyOn f w.applyEnv
      ⟨some (created.read delta), true, true, .rpm (created.read old >>= rpmOf w.lib w.U false)⟩ cleanup
    (r.1, created.leave out junk r.2)

end Drpm
