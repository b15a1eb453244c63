import Verif.RpmFile
import Verif.Api
/-!
# Writes that fail

`drpm_make` and `drpm_apply` again, with system calls that fail or write only a part of what they are
given; what is then found at the output path. The other modules assume that every write succeeds.
-/

namespace Drpm

/-- What one `write(2)` (or `Fwrite`, which calls it) does: everything, the first `n` bytes, or an error. -/
inductive WriteRes where
  | all
  | part (n : Nat)
  | fail
deriving DecidableEq

/-- The bytes that reach the file. -/
def WriteRes.wrote (b : Bytes) : WriteRes → Bytes
  | .all => b
  | .part n => b.take n
  | .fail => []

/-- The number that is returned; `none` stands for -1. -/
def WriteRes.returned (b : Bytes) : WriteRes → Option Nat
  | .all => some b.length
  | .part n => some (min n b.length)
  | .fail => none

/-- A call of `write` with the test of its result, `if (write(fd, b, len) != len)`: does it pass, what is in
    the file, and the number of the next call. `f` tells what becomes of each call. -/
def put (f : Nat → WriteRes) (k : Nat) (file b : Bytes) : Bool × Bytes × Nat :=
  (decide ((f k).returned b = some b.length), file ++ (f k).wrote b, k + 1)

/-- Several calls, up to the first that fails. -/
def putAll (f : Nat → WriteRes) : Nat → Bytes → List Bytes → Bool × Bytes × Nat
  | k, file, [] => (true, file, k)
  | k, file, b :: bs =>
    match put f k file b with
    | (true, file, k) => putAll f k file bs
    | (false, file, k) => (false, file, k)

/-! ## Making -/

/-- The faults of one call of `drpm_make`: an error before anything is written (a failing allocation, say);
    `creat` or `Fopen`; the allocations of `rpm_write` (src/drpm_rpm.c:502-504); the writes; opening the
    file again; and for the sequence file `fopen`, `malloc`, and how many bytes of the line `fprintf` and
    `fclose` bring to the disk. -/
structure MakeFaults where
  early : Option Err
  create : Bool
  parts : Bool
  writes : Nat → WriteRes
  reopen : Bool
  seqOpen : Bool
  seqRoom : Bool
  seqBytes : Nat

/-- src/drpm.c:292-466 and src/drpm_write.c:67-207: everything up to the first system call that concerns the
    output: the delta, the head of a standard delta (lines 211-221), the compressed data. -/
def makeParts (env : MakeEnv) (o : Opts Bytes) (old new : Option (Out Rpm)) : Out (Delta × Bytes × Bytes) :=
  if old.isNone ∧ new.isNone then .err .args
  else if o.rpmOnly ∧ o.version < 3 then .err .args
  else do
    let (d, header, level) ← makeAny env o old new
    let s ← writeStream d
    let z ← compressDelta env d.comp level s
    let h ← standardPart d (env.rpmW header) z
    .ok (d, h, z)

/-- src/drpm_write.c:235-258: what is given to each `write` for an rpm-only delta. -/
def rpmonlyPieces (d : Delta) (z : Bytes) : List Bytes :=
  [[100, 114, 112, 109], versionBytes d.version, createBe32 ((d.tgtNevr.length + 1) % 2^32),
    (d.tgtNevr ++ [0]).take ((d.tgtNevr.length + 1) % 2^32), createBe32 d.addData.length, d.addData, z]

/-- src/drpm_write.c:209-272: for a standard delta `rpm_write` (src/drpm_rpm.c:485-547; lead, signature of
    `sigLen` bytes, header), then the file is opened again for the data. The results of `Fclose` and
    `close` are not looked at; here they succeed. -/
def writeDeltaOn (f : MakeFaults) (sigLen : Nat) (d : Delta) (head z : Bytes) : Out Unit × Left :=
  if f.create = false then (.err .io, .untouched)
  else
    match d.type with
    | .rpmonly =>
      match putAll f.writes 0 [] (rpmonlyPieces d z) with
      | (true, file, _) => (.ok (), .written file)
      | (false, file, _) => (.err .io, .written file)
    | .standard =>
      if f.parts = false then (.err .memory, .written [])
      else
        match putAll f.writes 0 [] [head.take 96, (head.drop 96).take sigLen, (head.drop 96).drop sigLen] with
        | (false, file, _) => (.err .io, .written file)
        | (true, file, k) =>
          if f.reopen = false then (.err .io, .written file)
          else
            match put f.writes k file z with
            | (true, file, _) => (.ok (), .written file)
            | (false, file, _) => (.err .io, .written file)

/-- src/drpm_write.c:274-297 `write_seqfile`: neither the result of `fprintf` nor that of `fclose` is looked
    at. -/
def writeSeqOn (f : MakeFaults) (d : Delta) : Out Unit × Left :=
  if f.seqOpen = false then (.err .io, .untouched)
  else if f.seqRoom = false then (.err .memory, .written [])
  else
    match seqLine d.srcNevr d.sequence with
    | .ok line => (.ok (), .written (line.take f.seqBytes))
    | .err e => (.err e, .written [])
    | .ub => (.ub, .partly)
    | .loop => (.loop, .partly)

/-- src/drpm.c:466-474: the delta, then the sequence file if one is asked for. -/
def writeBothOn (f : MakeFaults) (sigLen : Nat) (seqfile : Bool) (d : Delta) (head z : Bytes) : Out Unit × Left × Left :=
  match writeDeltaOn f sigLen d head z with
  | (.ok (), l) => if seqfile then ((writeSeqOn f d).1, l, (writeSeqOn f d).2) else (.ok (), l, .untouched)
  | (x, l) => (x, l, .untouched)

/-- src/drpm.c:292-494 `drpm_make` under faults: the result, and what is left at the path of the delta and at
    that of the sequence file. -/
def drpmMakeOn (f : MakeFaults) (sigLen : Nat) (env : MakeEnv) (o : Opts Bytes) (old new : Option (Out Rpm)) :
    Out Unit × Left × Left :=
  match f.early with
  | some e => (.err e, .untouched, .untouched)
  | none =>
    match makeParts env o old new with
    | .ok (d, head, z) => writeBothOn f sigLen o.seqfile.isSome d head z
    | .err e => (.err e, .untouched, .untouched)
    | .ub => (.ub, .untouched, .untouched)
    | .loop => (.loop, .untouched, .untouched)

/-! ## Applying -/

/-- A compression stream and the number of the next `write`. -/
structure FStrm (σ : Type) where
  s : CStrm σ
  k : Nat

/-- src/drpm_compstrm.c:563-591 `compstrm_write`, descriptor and buffer given. -/
def csWriteOn {σ : Type} (f : Nat → WriteRes) (E : Enc σ) (w : FStrm σ) (b : Bytes) : Option Err × FStrm σ :=
  if w.s.finished then (some .prog, w)
  else if b.length = 0 then (none, w)
  else
    match E.write w.s.st b with
    | (o, st, some e) => (some e, ⟨{ w.s with data := w.s.data ++ o, st := st }, w.k⟩)
    | (o, st, none) =>
      if ((w.s.data ++ o).drop w.s.pos).length = 0 then
        (none, ⟨{ w.s with data := w.s.data ++ o, st := st, pos := (w.s.data ++ o).length }, w.k⟩)
      else
        match put f w.k w.s.file ((w.s.data ++ o).drop w.s.pos) with
        | (true, file, k) => (none, ⟨{ w.s with data := w.s.data ++ o, st := st, file := file, pos := (w.s.data ++ o).length }, k⟩)
        | (false, file, k) => (some .io, ⟨{ w.s with data := w.s.data ++ o, st := st, file := file }, k⟩)

/-- src/drpm_compstrm.c:502-536 `compstrm_finish`. -/
def csFinishOn {σ : Type} (f : Nat → WriteRes) (E : Enc σ) (w : FStrm σ) : Except Err Bytes × FStrm σ :=
  if w.s.finished then (.error .prog, w)
  else
    match E.finish with
    | none => (.ok w.s.data, ⟨{ w.s with finished := true }, w.k⟩)
    | some fin =>
      match fin w.s.st with
      | (o, some e) => (.error e, ⟨{ w.s with data := w.s.data ++ o }, w.k⟩)
      | (o, none) =>
        if ((w.s.data ++ o).drop w.s.pos).length = 0 then
          (.ok (w.s.data ++ o), ⟨{ w.s with data := w.s.data ++ o, finished := true }, w.k⟩)
        else
          match put f w.k w.s.file ((w.s.data ++ o).drop w.s.pos) with
          | (true, file, k) => (.ok (w.s.data ++ o), ⟨{ w.s with data := w.s.data ++ o, finished := true, file := file }, k⟩)
          | (false, file, k) => (.error .io, ⟨{ w.s with data := w.s.data ++ o, file := file }, k⟩)

/-- `struct compstrm_wrapper` (see `Wrap`). -/
structure FWrap (σ : Type) where
  strm : FStrm σ
  ulen : Nat
  udata : Bytes

/-- src/drpm_write.c:342-366 `compstrm_wrapper_write`. -/
def wrWriteOn {σ : Type} (f : Nat → WriteRes) (E : Enc σ) (w : FWrap σ) (b : Bytes) : Option Err × FWrap σ :=
  if w.ulen - w.udata.length > 0 then
    if b.length = 0 then (none, w)
    else
      match put f w.strm.k w.strm.s.file (b.take (min (w.ulen - w.udata.length) b.length)) with
      | (false, file, k) => (some .io, { w with strm := ⟨{ w.strm.s with file := file }, k⟩ })
      | (true, file, k) =>
        let r := csWriteOn f E ⟨{ w.strm.s with file := file }, k⟩ (b.drop (min (w.ulen - w.udata.length) b.length))
        (r.1, { w with strm := r.2, udata := w.udata ++ b.take (min (w.ulen - w.udata.length) b.length) })
  else
    let r := csWriteOn f E w.strm b
    (r.1, { w with strm := r.2 })

/-- The writes of src/drpm.c:681-727, up to the first error. -/
def wrWritesOn {σ : Type} (f : Nat → WriteRes) (E : Enc σ) : FWrap σ → List Bytes → Option Err × FWrap σ
  | w, [] => (none, w)
  | w, b :: bs =>
    match wrWriteOn f E w b with
    | (some e, w) => (some e, w)
    | (none, w) => wrWritesOn f E w bs

/-- src/drpm_write.c:368-391 `compstrm_wrapper_finish`. -/
def wrFinishOn {σ : Type} (f : Nat → WriteRes) (E : Enc σ) (w : FWrap σ) : Out Bytes × FWrap σ :=
  match csFinishOn f E w.strm with
  | (.error e, s) => (.err e, { w with strm := s })
  | (.ok d, s) =>
    if w.udata.length < w.ulen then (.ub, { w with strm := s })
    else (.ok (w.udata ++ d), { w with strm := s })

/-- src/drpm.c:669-731: the writes through the wrapper and the end of the stream; the data handed out and what
    is in the file. If the data to be written run out with an error (`ws` is not `ok`), what was written
    until then is not said. -/
def wrAllOn {σ : Type} (f : Nat → WriteRes) (E : Enc σ) (ulen k : Nat) (file : Bytes) (bs : List Bytes) : Out Bytes × Left :=
  match wrWritesOn f E ⟨⟨csInit E true file, k⟩, ulen, []⟩ bs with
  | (some e, w) => (.err e, .written w.strm.s.file)
  | (none, w) =>
    match wrFinishOn f E w with
    | (.ok d, w) => (.ok d, .written w.strm.s.file)
    | (.err e, w) => (.err e, .written w.strm.s.file)
    | (.ub, _) => (.ub, .partly)
    | (.loop, _) => (.loop, .partly)

/-- The compressor for the payload, src/drpm.c:669-671. -/
def compressNewOn {σ : Type} (f : Nat → WriteRes) (env : ApplyEnv σ) (d : Delta) (k : Nat) (file : Bytes) (ws : List Bytes) : Out Bytes × Left :=
  if d.tgtComp = 0 then wrAllOn f plainEnc d.tgtHeaderLen k file ws
  else wrAllOn f (env.enc d.tgtComp d.tgtCompLevel) d.tgtHeaderLen k file ws

/-- An outcome that is not a value, with what is left at the path. -/
def Out.stop {α β : Type} (l : Left) : Out α → Out β × Left
  | .ok _ => (.ub, l)
  | .err e => (.err e, l)
  | .ub => (.ub, .partly)
  | .loop => (.loop, .partly)

/-- src/drpm.c:667-731, after lead, signature and header: the bytes whose MD5 was computed, and the file. An
    error while the data are put together comes after some of the writes. -/
def applyDataOn {σ : Type} (f : Nat → WriteRes) (env : ApplyEnv σ) (d : Delta) (header : Bytes) (k : Nat) (file : Bytes)
    (ws : Out (List Bytes)) : Out Bytes × Left :=
  match strmOpen d.tgtComp d.tgtCompLevel with
  | .ok () =>
    match ws with
    | .ok ws =>
      match compressNewOn f env d k file ws with
      | (.ok data, l) => (.ok ((if noFullMd5 d then [] else d.tgtLeadsig) ++ header ++ data), l)
      | x => x
    | x => Out.stop .partly x
  | x => Out.stop (.written file) x

/-- src/drpm.c:653-666: the header of a standard delta. -/
def applyHeaderOn {σ : Type} (f : Nat → WriteRes) (env : ApplyEnv σ) (file : Bytes) (d : Delta) (k : Nat) (out : Bytes)
    (ws : Out (List Bytes)) : Out Bytes × Left :=
  if d.type = .rpmonly then applyDataOn f env d [] k out ws
  else
    match env.tgtHeader file with
    | .ok header =>
      match put f k out header with
      | (true, out, k) => applyDataOn f env d header k out ws
      | (false, out, _) => (.err .io, .written out)
    | x => Out.stop (.written out) x

/-- src/drpm.c:644-736. -/
def applyWriteOn {σ : Type} (f : Nat → WriteRes) (env : ApplyEnv σ) (file : Bytes) (d : Delta) (ws : Out (List Bytes)) :
    Out Bytes × Left :=
  match put f 0 [] d.tgtLeadsig with
  | (true, out, k) => applyHeaderOn f env file d k out ws
  | (false, out, _) => (.err .io, .written out)

/-- src/drpm_rpm.c:485-547 `rpm_write` with archive; `open` is `Fopen`, which truncates the file again. -/
def writeOldOn {σ : Type} (f : Nat → WriteRes) (open_ : Bool) (env : ApplyEnv σ) (d : Delta) (r : Rpm) : Out Bytes × Left :=
  if open_ = false then (.err .io, .written [])
  else
    match env.exportSig d.tgtLeadsig with
    | .ok ls =>
      match putAll f 0 [] [ls.take 96, ls.drop 96, r.header, r.archive] with
      | (true, out, _) => (.ok ((if noFullMd5 d then [] else ls) ++ r.header ++ r.archive), .written out)
      | (false, out, _) => (.err .io, .written out)
    | x => Out.stop (.written []) x

/-- What is to be written, once everything before is done: the old package with the new signature, or the data of
    the diff. -/
inductive ApplyBody where
  | same (r : Rpm)
  | diff (ws : Out (List Bytes))

/-- src/drpm.c:616-642 (see `planDiff`). -/
def planDiffOn {σ : Type} (env : ApplyEnv σ) (d : Delta) (old : OldData) (files : List FileInfo)
    (places : List CpioFile) (cleanup : Nat) : Out ApplyBody := do
  let _ ← countsFit d
  let cfg ← blocksCreate d.extDataLen d.exts
  let add ← openAdd env.dec d.addData
  .ok (.diff (applyLoop d old files places cfg cleanup add))

/-- src/drpm.c:606-642 (see `planBody`). -/
def planBodyOn {σ : Type} (env : ApplyEnv σ) (d : Delta) (old : OldData) (files : List FileInfo)
    (places : List CpioFile) (cleanup : Nat) : Out ApplyBody :=
  match isNoDiff d, old with
  | true, .rpm r => .ok (.same r)
  | _, _ => planDiffOn env d old files places cleanup

/-- src/drpm.c:548-642 (see `planApply`). -/
def planApplyOn {σ : Type} (env : ApplyEnv σ) (file : Bytes) (src : OldSrc) (cleanup : Nat) :
    Out (Delta × Out (Option Bytes) × ApplyBody) := do
  let d ← readDelta env.dec env.rpmHead file
  let (p, old) ← applyOld env file d src
  let _ ← sameNevr d.srcNevr p
  let (files, places) ← applyPlaces env d p
  let sig ← replaceSig env d.tgtLeadsig
  let body ← planBodyOn env d old files places cleanup
  .ok (d, sig, body)

/-- The faults of one call of `drpm_apply`: an error before anything is written; the writes; `Fopen` of
    `rpm_write`. -/
structure ApplyFaults where
  early : Option Err
  writes : Nat → WriteRes
  reopen : Bool

/-- src/drpm.c:606-736: what is written. -/
def writeBodyOn {σ : Type} (f : ApplyFaults) (env : ApplyEnv σ) (file : Bytes) (d : Delta) : ApplyBody → Out Bytes × Left
  | .same r => writeOldOn f.writes f.reopen env d r
  | .diff ws => applyWriteOn f.writes env file d ws

/-- src/drpm.c:548-781, after the output file has been created. -/
def applyToOn {σ : Type} (f : ApplyFaults) (env : ApplyEnv σ) (delta : Out Bytes) (src : OldSrc) (cleanup : Nat) : Out Unit × Left :=
  match f.early with
  | some e => (.err e, .written [])
  | none =>
    match delta with
    | .ok file =>
      match planApplyOn env file src cleanup with
      | .ok (d, sig, body) =>
        match writeBodyOn f env file d body with
        | (.ok hashed, l) => (finalCheck d sig (env.H hashed), l)
        | (x, l) => Out.stop l x
      | x => Out.stop (.written []) x
    | x => Out.stop (.written []) x

/-- src/drpm.c:498-781 `drpm_apply` under faults. -/
def drpmApplyOn {σ : Type} (f : ApplyFaults) (env : ApplyEnv σ) (a : ApplyArgs) (cleanup : Nat) : Out Unit × Left :=
  match a.delta, a.named with
  | none, _ => (.err .args, .untouched)
  | some _, false => (.err .args, .untouched)
  | some delta, true =>
    if a.creatable = false then (.err .io, .untouched) else applyToOn f env delta a.src cleanup

end Drpm
