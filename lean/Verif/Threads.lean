import Verif.Apply
/-!
# Several calls of `drpm_apply` at the same time

The only thing that calls of the library share is the counter `cleanup_count` (a static variable of
`get_block`, src/drpm_block.c:312), which is read and incremented at most once per request for a block
(line 329). Everything else is reached through the arguments and locals of a call.

The loop of `drpm_apply` is given a second time as a program that asks for blocks, so that the requests
of several calls can be interleaved; `runProg_recon` (`ThreadLemmas.lean`) shows that it is the loop of
`Recon.lean`. C does not define what happens when two threads use the counter at the same time; it is
assumed that the counter may have any value afterwards, and that nothing else happens.
-/

namespace Drpm

/-- A program that asks for blocks: the arguments of `blocks_next` (src/drpm_block.c:285) and what to do
    with the bytes, or the outcome. -/
inductive Prog where
  | done (r : Out (List Bytes))
  | ask (off len cnt id : Nat) (k : Bytes → Prog)

/-- Going on, or ending with the failure. -/
def Prog.of {α : Type} (x : Out α) (k : α → Prog) : Prog :=
  match x with
  | .ok a => k a
  | .err e => .done (.err e)
  | .ub => .done .ub
  | .loop => .done .loop

/-- src/drpm.c:695-720, `extCopyLoop`. -/
def extCopyProg (useAdd : Bool) (k : ReconSt Unit → Prog) : Nat → Nat → Nat → ReconSt Unit → Prog
  | 0, _, _, _ => .done .loop
  | fuel + 1, len, blkId, s =>
    if len > 0 then
      .ask s.extOff len s.done blkId fun chunk =>
        Prog.of (applyAdd useAdd chunk s.add) fun x =>
          extCopyProg useAdd k fuel ((len + 2^64 - chunk.length) % 2^64) (blkId + 1)
            { s with add := x.2, out := s.out ++ [x.1], extOff := (s.extOff + chunk.length) % 2^64 }
    else k s

/-- src/drpm.c:688-722, `extCopies`. -/
def extCopiesProg (useAdd : Bool) (k : ReconSt Unit → Prog) : List (Nat × Nat) → ReconSt Unit → Prog
  | [], s => k s
  | (w, len) :: rest, s =>
    extCopyProg useAdd (fun s => extCopiesProg useAdd k rest { s with done := s.done + 1 }) (len + 1) len
      (blockId (addS32 s.extOff w)) { s with extOff := addS32 s.extOff w }

/-- src/drpm.c:681-727, `reconLoop`. -/
def reconProg (useAdd : Bool) : List (Nat × Nat) → List (Nat × Nat) → Bytes → ReconSt Unit → Prog
  | [], _, _, s => .done (.ok s.out)
  | (todo, len) :: ints, ext, intData, s =>
    if todo > ext.length then .done (.err .format)
    else
      extCopiesProg useAdd (fun s => Prog.of (rdBlk intData 0 len) fun d =>
        reconProg useAdd ints (ext.drop todo) (intData.drop len) { s with out := s.out ++ [d] }) (ext.take todo) s

/-- Running a program alone. -/
def runProg {τ : Type} (next : BlockProvider τ) : Prog → τ → Out (List Bytes)
  | .done r, _ => r
  | .ask off len cnt id k, c => next c off len cnt id >>= fun x => runProg next (k x.1) x.2

/-- A call that is in its loop: where its blocks come from, its cache and what it does next. The field
    `cleanup` of the cache is not used: the counter is shared. -/
structure Thread : Type 1 where
  src : Type
  cfg : CacheCfg
  step : src → Out (Bytes × src)
  cache : Cache src
  prog : Prog

/-- All calls and the counter. -/
structure Process : Type 1 where
  counter : Nat
  threads : List Thread

/-- One request of a call, with the counter as it is; the new value of the counter (if the request
    succeeds) and the call afterwards. -/
def Thread.next (t : Thread) (counter : Nat) : Option Nat × Thread :=
  match t.prog with
  | .done _ => (none, t)
  | .ask off len cnt id k =>
    match blocksNext t.cfg (rpmFiller t.cfg t.step) { t.cache with cleanup := counter } off len cnt id with
    | .ok x => (some x.2.cleanup, { t with cache := x.2, prog := k x.1 })
    | .err e => (none, { t with prog := .done (.err e) })
    | .ub => (none, { t with prog := .done .ub })
    | .loop => (none, { t with prog := .done .loop })

/-- Call `i` makes its next request. The counter is as this request leaves it, or has any other value
    `v`, which covers updates that are lost and requests that fail. -/
def Process.step (p : Process) (i : Nat) (v : Option Nat) : Process :=
  match p.threads[i]? with
  | none => p
  | some t => ⟨v.getD ((t.next p.counter).1.getD p.counter), p.threads.set i (t.next p.counter).2⟩

/-- A schedule: which call makes the next request, and what becomes of the counter. -/
def Process.run (p : Process) : List (Nat × Option Nat) → Process
  | [] => p
  | (i, v) :: rest => (p.step i v).run rest

/-- A call of `drpm_apply` with an old package whose loop is to begin: the size of the old data, the copies,
    the internal data and the add block. -/
structure Job : Type 1 where
  src : Type
  step : src → Out (Bytes × src)
  start : src
  size : Nat
  exts : List (Nat × Nat)
  ints : List (Nat × Nat)
  useAdd : Bool
  intData : Bytes
  add : Bytes

/-- The call at the beginning of its loop, after `blocks_create`. -/
def Job.thread (j : Job) (cfg : CacheCfg) : Thread :=
  ⟨j.src, cfg, j.step, emptyCache j.start 0, reconProg j.useAdd j.ints j.exts j.intData ⟨(), 0, 0, j.add, []⟩⟩

/-- What the loop does when nothing else runs, with the counter at `cleanup`. -/
def Job.alone (j : Job) (cfg : CacheCfg) (cleanup : Nat) : Out (List Bytes) :=
  reconWrites (blocksNext cfg (rpmFiller cfg j.step)) (emptyCache j.start cleanup) j.useAdd j.exts j.ints j.intData j.add

/-! ## One call, seen from the outside -/

/-- The provider of a call whose counter has the value `h k` at its request number `k`. -/
def sharedNext {σ : Type} (h : Nat → Nat) (next : BlockProvider (Cache σ)) : BlockProvider (Nat × Cache σ) :=
  fun c off len cnt id => next { c.2 with cleanup := h c.1 } off len cnt id >>= fun x => .ok (x.1, (c.1 + 1, x.2))

/-- `applyLoop` (src/drpm.c:673-727) for an old package, with the counter as `h` says. -/
def applyLoopShared (h : Nat → Nat) (d : Delta) (r : Rpm) (files : List FileInfo) (places : List CpioFile) (cfg : CacheCfg)
    (add : Option Bytes) : Out (List Bytes) :=
  match d.type with
  | .rpmonly =>
    reconWrites (sharedNext h (blocksNext cfg (rpmFiller cfg (rpmonlyStep r.header r.archive))))
      (0, emptyCache ⟨0, 0, d.extDataLen⟩ 0) add.isSome d.exts d.ints d.intBytes (add.getD [])
  | .standard =>
    reconWrites (sharedNext h (blocksNext cfg (rpmFiller cfg (stdStep ⟨r.archive, files, places⟩))))
      (0, emptyCache StdSrc.init 0) add.isSome d.exts d.ints d.intBytes (add.getD [])

/-- `planBody` (src/drpm.c:606-642). -/
def planBodyShared {σ : Type} (h : Nat → Nat) (env : ApplyEnv σ) (file : Bytes) (d : Delta) (old : OldData) (files : List FileInfo)
    (places : List CpioFile) : Out (Out (Bytes × Bytes)) :=
  match isNoDiff d, old with
  | true, .rpm r => .ok (writeOld env d r)
  | false, .rpm r => do
    let _ ← countsFit d
    let cfg ← blocksCreate d.extDataLen d.exts
    let add ← openAdd env.dec d.addData
    .ok (applyWrite env file d (applyLoopShared h d r files places cfg add))
  | _, .files _ => .ub

/-- `planApply` (src/drpm.c:548-642). -/
def planApplyShared {σ : Type} (h : Nat → Nat) (env : ApplyEnv σ) (file : Bytes) (old : Out Rpm) : Out ApplyPlan := do
  let d ← readDelta env.dec env.rpmHead file
  let (p, od) ← applyOld env file d (.rpm old)
  let _ ← sameNevr d.srcNevr p
  let (files, places) ← applyPlaces env d p
  let sig ← replaceSig env d.tgtLeadsig
  let body ← planBodyShared h env file d od files places
  .ok ⟨d, sig, body⟩

/-- `drpmApply` (src/drpm.c:498-781) with an old package, while other threads use the library. -/
def drpmApplyShared {σ : Type} (h : Nat → Nat) (env : ApplyEnv σ) (delta : Option (Out Bytes)) (named creatable : Bool) (old : Out Rpm) :
    Out Unit × Left :=
  match delta, named with
  | none, _ => (.err .args, .untouched)
  | some _, false => (.err .args, .untouched)
  | some delta, true =>
    if creatable = false then (.err .io, .untouched) else
      match delta >>= fun file => planApplyShared h env file old with
      | .ok pl => finishApply env pl.d pl.sig pl.body
      | .err e => (.err e, .written [])
      | .ub => (.ub, .partly)
      | .loop => (.loop, .partly)

end Drpm
