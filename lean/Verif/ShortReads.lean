import Verif.Format
/-!
# Reading a delta with short and failing reads: src/drpm_read.c

`read(2)` may return fewer bytes than it was asked for (a signal, a network file system, a pipe), and it
may fail. The readers of `Verif/Format.lean` for the head of a delta, and the compressed stream behind it,
once more with a schedule that says what each call of `read` does. rpmlib reads the head of a standard
delta by itself; its answers do not depend on the schedule. Failures of `lseek` are left out.
-/

namespace Drpm

/-- What one call of `read` does: it fails, or returns no more than `k` bytes (but at least one, unless
    none are left or none are asked for). -/
inductive ReadRes where
  | fails
  | upTo (k : Nat)

/-- `read(fd, buf, n)` at a place where `s` is still to come; `none` is -1. Linux never transfers more than
    0x7ffff000 bytes at once. -/
def readOnce (r : ReadRes) (n : Nat) (s : Bytes) : Option Bytes :=
  match r with
  | .fails => none
  | .upTo k => some (s.take (min (min n 0x7ffff000) (max 1 k)))

/-- A reader of a file: the number of the next `read` and what is left of the file. -/
def PR (α : Type) := Nat × Bytes → Out (α × (Nat × Bytes))

namespace PR
/-- Sequencing. -/
def bind {α β : Type} (p : PR α) (f : α → PR β) : PR β := fun s => (p s) >>= fun r => f r.1 r.2
instance : Monad PR where
  pure a := fun s => .ok (a, s)
  bind := PR.bind
/-- Stop with an error. -/
def fail {α : Type} (e : Err) : PR α := fun _ => .err e
/-- Undefined behaviour. -/
def ub {α : Type} : PR α := fun _ => .ub

theorem bind_run {α β : Type} (p : PR α) (f : α → PR β) (s : Nat × Bytes) :
    (p >>= f) s = ((p s) >>= fun r => f r.1 r.2) := rfl
end PR

/-- src/drpm_read.c:48-55, 67-74, 385-389, 401-405: one `read` of `n` bytes into a buffer of `cap` bytes; fewer
    bytes are `DRPM_ERR_FORMAT`. -/
def sysReadOn (sched : Nat → ReadRes) (cap n : Nat) : PR Bytes := fun st =>
  match readOnce (sched st.1) n st.2 with
  | none => .err .io
  | some b =>
    if b.length > cap then .ub
    else if b.length ≠ n then .err .format
    else .ok (b, (st.1 + 1, st.2.drop n))

/-- src/drpm_read.c:43-59 `read_be32`. -/
def fileBe32On (sched : Nat → ReadRes) : PR Nat := do
  let b ← sysReadOn sched 4 4
  fun st => be32At b >>= fun v => .ok (v, st)

/-- src/drpm_read.c:380-391: the target NEVR. -/
def fileNevrOn (sched : Nat → ReadRes) (len : Nat) : PR Bytes := do
  let b ← sysReadOn sched ((len + 1) % 2^32) len
  if len < (len + 1) % 2^32 then pure (b.takeWhile (· ≠ 0)) else PR.ub

/-- src/drpm_read.c:371-375. -/
def fileVersionOn (sched : Nat → ReadRes) : PR Unit := do
  let v ← fileBe32On sched
  if v ≠ 0x444C5433 then PR.fail .format else pure ()

/-- src/drpm_read.c:364-408 `readdelta_rpmonly`. -/
def rdRpmonlyHeadOn (sched : Nat → ReadRes) (d : Delta) : PR Delta := do
  fileVersionOn sched
  let n ← fileBe32On sched
  let nevr ← fileNevrOn sched n
  let an ← fileBe32On sched
  let add ← sysReadOn sched an an
  pure { d with tgtNevr := nevr, addData := add }

/-- The bytes of `z` that the `read_chunk` functions (src/drpm_decompstrm.c:453-780, 1024 bytes at a time) get before a
    `read` fails, beginning with the `i`-th `read`. Every `read` takes at least one byte. -/
def received (sched : Nat → ReadRes) : Nat → Nat → Bytes → Bytes
  | 0, _, _ => []
  | fuel + 1, i, z =>
    match readOnce (sched i) 1024 z with
    | none => []
    | some b => b ++ received sched fuel (i + 1) (z.drop b.length)

/-- src/drpm_decompstrm.c:264-342 `decompstrm_init` on a file, and all that can be read from the stream afterwards.
    Simplified: a `read` that fails is the end of the data, so that the error of the reader that wants more is
    `DRPM_ERR_FORMAT` and not `DRPM_ERR_IO`. -/
def openStreamOn (sched : Nat → ReadRes) (dec : Decoder) (st : Nat × Bytes) : Out (Comp × Bytes) :=
  match readOnce (sched st.1) 8 st.2 with
  | none => .err .io
  | some b =>
    if b.length ≠ 8 then .err .format
    else do
      let m ← be64At b
      match detectComp m with
      | .none => .ok (.none, received sched st.2.length (st.1 + 1) st.2)
      | c => .ok (c, dec c (received sched st.2.length (st.1 + 1) st.2))

/-- src/drpm_read.c:433-481 `read_deltarpm` on the contents of the file, with a schedule of the calls of
    `read`. -/
def readDeltaOn (sched : Nat → ReadRes) (dec : Decoder) (rpmHead : Bytes → Out (Nat × Nat)) (file : Bytes) : Out Delta := do
  let (magic, st) ← fileBe32On sched (0, file)
  if magic = 0x6472706D then do
    let (d, st) ← rdRpmonlyHeadOn sched { Delta.zero with type := .rpmonly } st
    let (c, s) ← openStreamOn sched dec st
    let (d, _) ← rdRest { d with comp := c.code } s
    .ok d
  else if magic = 0xEDABEEDB then do
    let (size, comp) ← rpmHead file
    let (c, s) ← openStreamOn sched dec (st.1, file.drop size)
    let (d, _) ← rdRest { Delta.zero with type := .standard, tgtComp := comp, comp := c.code } s
    .ok d
  else .err .format

end Drpm
