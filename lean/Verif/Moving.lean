import Verif.Apply
/-!
# Applying a delta to installed files that change meanwhile: src/drpm.c:498-781 with src/drpm_block.c:916-1211

`drpm_apply` opens the installed files one by one, when it needs them, and takes no lock. Other processes
may replace, shorten, lengthen or remove a file at any time, also one that is already open. Here the files
may change before each block that is fetched, and once more between `fillblock_filesystem` and
`fillblock_prelink`, which opens the files again. (Left out: changes between two system calls of one of
these functions. `C100_verified` does not depend on this: there the blocks come from anywhere.)

A block is fetched at most once for each copy instruction, so a moment is given by the number of the
instruction and that of the block.
-/

namespace Drpm

/-- What the files are like while one block is fetched: `disk` for `fillblock_filesystem`, `later` for
    `fillblock_prelink`, `behind a` for what the contents behind the `a`-th open descriptor have turned into. -/
structure Sight where
  disk : Disk
  later : Disk
  behind : Nat → Bytes → Bytes

/-- Nothing has changed. -/
def Sight.still (disk : Disk) : Sight := ⟨disk, disk, fun _ b => b⟩

/-- The open files (src/drpm_block.c:50-56) after others have written to them. -/
def FsSt.turned (s : FsSt) (behind : Nat → Bytes → Bytes) : FsSt :=
  { s with slot := fun a => { s.slot a with data := behind a (s.slot a).data } }

/-- src/drpm_block.c:916-1017 `fillblock_filesystem` as the cache uses it, with files that change. -/
def movingFiller (cfg : CacheCfg) (files : List FileInfo) (places : List CpioFile) (sight : Nat → Nat → Sight) : Filler FsSt :=
  fun c a id cnt => do
    let (o, s) ← fsBlock ⟨(sight cnt id).disk, files, places⟩ (c.src.turned (sight cnt id).behind) id
    match o with
    | .block b => .ok { c with src := s, heap := upd c.heap a { c.heap a with type := .nopage, id := id, buf := b } }
    | .prelink k => plBlock cfg ⟨(sight cnt id).later, files, places⟩ { c with src := s } a id cnt k

/-- src/drpm.c:606-642 and 681-727 for installed files, with blocks of the old data from anywhere. -/
def planOver {σ : Type} (env : ApplyEnv σ) (file : Bytes) (d : Delta) (fill : CacheCfg → Filler FsSt) (cleanup : Nat) :
    Out (Out (Bytes × Bytes)) := do
  let _ ← countsFit d
  let cfg ← blocksCreate d.extDataLen d.exts
  let add ← openAdd env.dec d.addData
  .ok (applyWrite env file d (reconWrites (blocksNext cfg (fill cfg)) (emptyCache FsSt.init cleanup) add.isSome
    d.exts d.ints d.intBytes (add.getD [])))

/-- src/drpm.c:548-642 for installed files, with blocks of the old data from anywhere. -/
def planInstalled {σ : Type} (env : ApplyEnv σ) (file : Bytes) (db : Db)
    (fill : List FileInfo → List CpioFile → CacheCfg → Filler FsSt) (cleanup : Nat) : Out ApplyPlan := do
  let d ← readDelta env.dec env.rpmHead file
  if d.type = .rpmonly then .err .args
  else if env.tgtSource file then .err .args
  else do
    let p ← readInstalled db d.srcNevr
    let _ ← sameNevr d.srcNevr p
    let (files, places) ← applyPlaces env d p
    let sig ← replaceSig env d.tgtLeadsig
    let body ← planOver env file d (fill files places) cleanup
    .ok ⟨d, sig, body⟩

/-- src/drpm.c:498-781 `drpm_apply` with `old_rpm_name` NULL, for a delta with the contents `file` and an
    output file that can be created, with blocks of the old data from anywhere. -/
def applyAnyhow {σ : Type} (env : ApplyEnv σ) (file : Bytes) (db : Db)
    (fill : List FileInfo → List CpioFile → CacheCfg → Filler FsSt) (cleanup : Nat) : Out Unit × Left :=
  match planInstalled env file db fill cleanup with
  | .ok pl => finishApply env pl.d pl.sig pl.body
  | .err e => (.err e, .written [])
  | .ub => (.ub, .partly)
  | .loop => (.loop, .partly)

/-- The same with files that change as `sight` tells. -/
def applyMoving {σ : Type} (env : ApplyEnv σ) (file : Bytes) (db : Db) (sight : Nat → Nat → Sight) (cleanup : Nat) :
    Out Unit × Left :=
  applyAnyhow env file db (fun files places cfg => movingFiller cfg files places sight) cleanup

end Drpm
