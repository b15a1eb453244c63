import Verif.Basic
/-!
# Options for `drpm_make`: src/drpm_options.c

Option objects are reached through handles: variables of the caller that hold NULL or a pointer to
an object of their own. Strings of the caller are byte lists without NUL. Whether an allocation
succeeds is part of each call.
-/

namespace Drpm

/-- `struct drpm_make_options`, src/drpm_private.h:93-106, for a type of strings; `none` is a NULL
    pointer. -/
structure Opts (S : Type) where
  rpmOnly : Bool
  version : Nat
  compFromRpm : Bool
  comp : Nat
  compLevel : Nat
  addblk : Bool
  addblkComp : Nat
  addblkLevel : Nat
  seqfile : Option S
  oldrpmprint : Option S
  oldpatchrpm : Option S
  mbytes : Nat
deriving DecidableEq, Repr

/-- An allocated string buffer: its size, and the string in it (`none`: not yet written). -/
structure CBuf where
  cap : Nat
  str : Option Bytes
deriving DecidableEq, Repr

/-- `strlen`; of memory not yet written it is undefined. -/
def strlen (b : CBuf) : Out Nat :=
  match b.str with
  | some s => .ok s.length
  | none => .ub

/-- `strcpy(b, s)`; undefined if it does not fit. -/
def strcpy (b : CBuf) (s : Bytes) : Out CBuf :=
  if s.length + 1 ≤ b.cap then .ok { b with str := some s } else .ub

/-- src/drpm_options.c:241-245, 259-263, 264-268: the buffer is reallocated if there is none or if
    its string is shorter than the new one. `mem` says whether the allocation succeeds; the result
    is `none` if it was needed and failed. -/
def growBuf (p : Option CBuf) (s : Bytes) (mem : Bool) : Out (Option CBuf) :=
  match p with
  | none => .ok (if mem then some ⟨s.length + 1, none⟩ else none)
  | some b => do
    let l ← strlen b
    .ok (if l < s.length then (if mem then some ⟨s.length + 1, b.str⟩ else none) else some b)

/-- src/drpm_options.c:59-82 `drpm_make_options_defaults`. -/
def defaultOpts {S : Type} : Opts S :=
  { rpmOnly := false, version := 3, compFromRpm := true, comp := 65535, compLevel := 0, addblk := true,
    addblkComp := 2, addblkLevel := 0, seqfile := none, oldrpmprint := none, oldpatchrpm := none, mbytes := 0 }

/-- src/drpm_options.c:161-178, 208-225: the compression methods accepted; `zstd` says whether the
    library was built with zstd. -/
def compOk (zstd : Bool) (comp : Nat) : Bool := comp ≤ 5 || (zstd && comp == 6)

/-- src/drpm_options.c:158-159, 205-206: the levels accepted. -/
def levelOk (level : Nat) : Bool := level == 0 || (1 ≤ level && level ≤ 9)

/-- src/drpm_options.c:127-144 `drpm_make_options_set_type`. -/
def setType {S : Type} (o : Opts S) (type : Nat) : Option Err × Opts S :=
  if type = 0 then (none, { o with rpmOnly := false })
  else if type = 1 then (none, { o with rpmOnly := true })
  else (some .args, o)

/-- src/drpm_options.c:146-154 `drpm_make_options_set_version`. -/
def setVersion {S : Type} (o : Opts S) (version : Nat) : Option Err × Opts S :=
  if version < 1 ∨ version > 3 then (some .args, o) else (none, { o with version := version })

/-- src/drpm_options.c:156-181 `drpm_make_options_set_delta_comp`. -/
def setDeltaComp {S : Type} (zstd : Bool) (o : Opts S) (comp level : Nat) : Option Err × Opts S :=
  if levelOk level = false then (some .args, o)
  else if compOk zstd comp then (none, { o with compFromRpm := false, comp := comp, compLevel := level })
  else (some .args, o)

/-- src/drpm_options.c:203-228 `drpm_make_options_set_addblk_comp`. -/
def setAddblkComp {S : Type} (zstd : Bool) (o : Opts S) (comp level : Nat) : Option Err × Opts S :=
  if levelOk level = false then (some .args, o)
  else if compOk zstd comp then (none, { o with addblk := true, addblkComp := comp, addblkLevel := level })
  else (some .args, o)

/-- src/drpm_options.c:230-250 `drpm_make_options_set_seqfile`. -/
def setSeqfile (o : Opts CBuf) (s : Option Bytes) (mem : Bool) : Out (Option Err × Opts CBuf) :=
  match s with
  | none => .ok (none, { o with seqfile := none })
  | some s => do
    match ← growBuf o.seqfile s mem with
    | none => .ok (some .memory, o)
    | some b => do
      let b ← strcpy b s
      .ok (none, { o with seqfile := some b })

/-- src/drpm_options.c:252-274 `drpm_make_options_add_patches`. -/
def addPatches (o : Opts CBuf) (print patch : Option Bytes) (mem1 mem2 : Bool) : Out (Option Err × Opts CBuf) :=
  match print, patch with
  | some s1, some s2 => do
    match ← growBuf o.oldrpmprint s1 mem1 with
    | none => .ok (some .memory, o)
    | some b1 => do
      let o := { o with oldrpmprint := some b1 }
      match ← growBuf o.oldpatchrpm s2 mem2 with
      | none => .ok (some .memory, o)
      | some b2 => do
        let b1 ← strcpy b1 s1
        let b2 ← strcpy b2 s2
        .ok (none, { o with oldrpmprint := some b1, oldpatchrpm := some b2 })
  | _, _ => .ok (some .args, o)

/-- src/drpm_options.c:106-110, 112-116, 118-122: copying one string; `none` if the allocation
    fails. -/
def dupStr (p : Option CBuf) (mem : Bool) : Out (Option (Option CBuf)) :=
  match p with
  | none => .ok (some none)
  | some b => do
    let l ← strlen b
    if mem then do
      let c ← strcpy ⟨l + 1, none⟩ (b.str.getD [])
      .ok (some (some c))
    else .ok none

/-- src/drpm_options.c:106-124: the strings; when an allocation fails, the rest stays NULL and the
    call still reports success. -/
def copyStrings (dst src : Opts CBuf) (m1 m2 m3 : Bool) : Out (Opts CBuf) := do
  match ← dupStr src.seqfile m1 with
  | none => .ok dst
  | some a => do
    let dst := { dst with seqfile := a }
    match ← dupStr src.oldrpmprint m2 with
    | none => .ok dst
    | some b => do
      let dst := { dst with oldrpmprint := b }
      match ← dupStr src.oldpatchrpm m3 with
      | none => .ok dst
      | some c => .ok { dst with oldpatchrpm := c }

/-- src/drpm_options.c:84-125 `drpm_make_options_copy`. `same` says that both arguments are the same
    object: then the strings are freed before they can be copied. -/
def copyOpts (src : Opts CBuf) (same : Bool) (m1 m2 m3 : Bool) : Out (Opts CBuf) :=
  let dst := { src with seqfile := none, oldrpmprint := none, oldpatchrpm := none }
  copyStrings dst (if same then dst else src) m1 m2 m3

/-- The calls; `h` is a handle. -/
inductive OCall where
  | init (h : Nat) (mem : Bool)
  | destroy (h : Nat)
  | defaults (h : Nat)
  | copy (dst src : Nat) (m1 m2 m3 : Bool)
  | type (h : Nat) (type : Nat)
  | version (h : Nat) (version : Nat)
  | deltaComp (h : Nat) (comp level : Nat)
  | compFromRpm (h : Nat)
  | forbidAddblk (h : Nat)
  | addblkComp (h : Nat) (comp level : Nat)
  | seqfile (h : Nat) (s : Option Bytes) (mem : Bool)
  | patches (h : Nat) (print patch : Option Bytes) (mem1 mem2 : Bool)
  | memlimit (h : Nat) (mbytes : Nat)

/-- The handles. -/
abbrev OWorld (S : Type) := Nat → Option (Opts S)

def OWorld.set {S : Type} (w : OWorld S) (h : Nat) (o : Option (Opts S)) : OWorld S := fun k => if k = h then o else w k

/-- A call that does not touch strings, through a handle; NULL is a bad argument. -/
def onHandle {S : Type} (w : OWorld S) (h : Nat) (f : Opts S → Option Err × Opts S) : Out (Option Err × OWorld S) :=
  match w h with
  | none => .ok (some .args, w)
  | some o => .ok ((f o).1, w.set h (some (f o).2))

/-- A call that does. -/
def onHandleM (w : OWorld CBuf) (h : Nat) (f : Opts CBuf → Out (Option Err × Opts CBuf)) : Out (Option Err × OWorld CBuf) :=
  match w h with
  | none => .ok (some .args, w)
  | some o => do
    let r ← f o
    .ok (r.1, w.set h (some r.2))

/-- One call: the error code (`none` is `DRPM_ERR_OK`) and the handles after it.
    src/drpm_options.c:28-43 `drpm_make_options_init` (when it fails the handle is NULL), 45-57
    `drpm_make_options_destroy` (which follows a NULL pointer), 183-191, 193-201 and 277-285; the
    others are above. -/
def ocall (zstd : Bool) (w : OWorld CBuf) : OCall → Out (Option Err × OWorld CBuf)
  | .init h mem => if mem then .ok (none, w.set h (some defaultOpts)) else .ok (some .memory, w.set h none)
  | .destroy h => match w h with
    | none => .ub
    | some _ => .ok (none, w.set h none)
  | .defaults h => onHandle w h (fun _ => (none, defaultOpts))
  | .copy dst src m1 m2 m3 =>
    match w dst, w src with
    | some _, some s => do
      let o ← copyOpts s (dst = src) m1 m2 m3
      .ok (none, w.set dst (some o))
    | _, _ => .ok (some .args, w)
  | .type h t => onHandle w h (fun o => setType o t)
  | .version h v => onHandle w h (fun o => setVersion o v)
  | .deltaComp h c l => onHandle w h (fun o => setDeltaComp zstd o c l)
  | .compFromRpm h => onHandle w h (fun o => (none, { o with compFromRpm := true }))
  | .forbidAddblk h => onHandle w h (fun o => (none, { o with addblk := false }))
  | .addblkComp h c l => onHandle w h (fun o => setAddblkComp zstd o c l)
  | .seqfile h s mem => onHandleM w h (fun o => setSeqfile o s mem)
  | .patches h a b m1 m2 => onHandleM w h (fun o => addPatches o a b m1 m2)
  | .memlimit h n => onHandle w h (fun o => (none, { o with mbytes := n }))

/-- A history of calls: the error codes and the handles after it. -/
def ocalls (zstd : Bool) : OWorld CBuf → List OCall → Out (List (Option Err) × OWorld CBuf)
  | w, [] => .ok ([], w)
  | w, c :: cs => do
    let (e, w) ← ocall zstd w c
    let (es, w) ← ocalls zstd w cs
    .ok (e :: es, w)

/-- src/drpm.c:292-325: the options `drpm_make` works with: whether an rpm-only delta is made, and
    the local copy of the options (allocations succeed). -/
def makeOpts (user : Option (Opts CBuf)) : Out (Bool × Opts CBuf) :=
  match user with
  | none => .ok (false, defaultOpts)
  | some o => do
    let c ← copyOpts o false true true true
    .ok (o.rpmOnly, c)

end Drpm
