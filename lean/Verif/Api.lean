import Verif.Format
/-!
# Reading a delta through the API: src/drpm.c:34-288, src/drpm_read.c:484-557; sequence IDs and NEVR
strings: src/drpm_write.c:274-297, src/drpm.c:863-882, src/drpm_rpm.c:1026-1054

Strings are byte lists without the terminating NUL.
-/

namespace Drpm

/-! ## Error descriptions -/

/-- src/drpm.c:34-62 `drpm_strerror`; the constants are in src/drpm.h:74-84. -/
def strerror (error : Int) : String :=
  if error = 0 then "no error"
  else if error = 1 then "memory allocation error"
  else if error = 2 then "bad arguments"
  else if error = 3 then "I/O error"
  else if error = 4 then "wrong file format"
  else if error = 5 then "misconfigured external library"
  else if error = 6 then "unspecified/unknown error"
  else if error = 7 then "file too large"
  else if error = 8 then "internal programming error"
  else if error = 9 then "file changed"
  else if error = 10 then "old RPM not installed"
  else "(undefined error value)"

/-! ## `struct drpm` -/

/-- src/drpm_private.h:67-91 `struct drpm`; the arrays are what was copied into them, their `_size`
    members are kept apart. -/
structure Info where
  filename : Bytes
  version : Nat
  type : Nat
  comp : Nat
  sequence : Bytes
  srcNevr : Bytes
  tgtNevr : Bytes
  tgtSize : Nat
  tgtMd5 : Bytes
  tgtComp : Nat
  tgtCompParam : Option Bytes
  tgtHeaderLen : Nat
  offadjSize : Nat
  offadj : List Nat
  tgtLeadsig : Bytes
  payloadFmtOff : Nat
  intSize : Nat
  ints : List Nat
  extSize : Nat
  exts : List Nat
  extDataLen : Nat
  intDataLen : Nat
deriving DecidableEq, Repr

/-- `DRPM_TYPE_STANDARD`, `DRPM_TYPE_RPMONLY`, src/drpm.h:91-92. -/
def DType.code : DType → Nat
  | .standard => 0
  | .rpmonly => 1

/-- An array of pairs as it lies in memory. -/
def flatPairs : List (Nat × Nat) → List Nat
  | [] => []
  | (a, b) :: rest => a :: b :: flatPairs rest

/-- `malloc(len * 2 + 1)` with a `uint32_t` length, src/drpm_read.c:510-514, 528-532 and
    src/drpm_write.c:283-288. -/
def hexRoom (src : Bytes) : Nat := (src.length * 2 + 1) % 2^32

/-- `dump_hex(dst, src, len)` into the buffer above: the digits and the NUL,
    src/drpm_utils.c:98-108. -/
def hexString (src : Bytes) : Out Bytes :=
  if (dumpHex src ++ [0]).length ≤ hexRoom src then .ok (dumpHex src) else .ub

/-- src/drpm_read.c:511-512, 531-532. -/
def hexParam (src : Bytes) : Out (Option Bytes) :=
  if src.length > 0 then do
    let h ← hexString src
    .ok (some h)
  else .ok none

/-- `size = count * 2`; `if (size > 0) { malloc(size * 4); memcpy(.., size * 4) }` in `uint32_t`,
    src/drpm_read.c:504-506, 515-520, 534-539. Reading more than the source holds is undefined. -/
def copyArray (count : Nat) (src : List (Nat × Nat)) : Out (Nat × List Nat) :=
  let size := count * 2 % 2^32
  let words := size * 4 % 2^32 / 4
  if size > 0 then
    if words ≤ (flatPairs src).length then .ok (size, (flatPairs src).take words) else .ub
  else .ok (0, [])

/-- src/drpm_read.c:541-551: the target NEVR, from the header of the RPM (`rpm_get_nevr`, rpmlib, a
    parameter) or from the delta. -/
def tgtNevrOf (rpmNevr : Out Bytes) (d : Delta) : Out Bytes :=
  match d.type with
  | .standard => rpmNevr
  | .rpmonly => .ok d.tgtNevr

/-- src/drpm_read.c:484-557 `deltarpm_to_drpm`. Allocations are taken to succeed. -/
def toDrpm (filename : Bytes) (rpmNevr : Out Bytes) (d : Delta) : Out Info := do
  let (os, oa) ← copyArray d.offadjCount d.offadj
  let (is, ia) ← copyArray d.intCount d.ints
  let (es, ea) ← copyArray d.extCount d.exts
  let seq ← hexString d.sequence
  let lead ← hexString d.tgtLeadsig
  let param ← hexParam d.tgtCompParam
  let nevr ← tgtNevrOf rpmNevr d
  .ok { filename := filename, version := d.version, type := d.type.code, comp := d.comp, sequence := seq,
        srcNevr := d.srcNevr, tgtNevr := nevr, tgtSize := d.tgtSize, tgtMd5 := dumpHex d.tgtMd5,
        tgtComp := d.tgtComp, tgtCompParam := param, tgtHeaderLen := d.tgtHeaderLen, offadjSize := os, offadj := oa,
        tgtLeadsig := lead, payloadFmtOff := d.payloadFmtOff, intSize := is, ints := ia, extSize := es, exts := ea,
        extDataLen := d.extDataLen, intDataLen := d.intDataLen }

/-- src/drpm.c:66-92 `drpm_read` on the contents of the file. -/
def drpmRead (dec : Decoder) (rpmHead : Bytes → Out (Nat × Nat)) (rpmNevr : Bytes → Out Bytes) (filename file : Bytes) :
    Out Info := do
  let d ← readDelta dec rpmHead file
  toDrpm filename (rpmNevr file) d

/-! ## Accessors

The last argument is the variable the result goes to, `none` if the pointer is NULL; the result is
the error code (`none` is `DRPM_ERR_OK`) and the variable afterwards. -/

/-- src/drpm.c:107-133 `drpm_get_uint`. `unsigned` has 32 bits. -/
def getUint (delta : Option Info) (tag : Int) (ret : Option Nat) : Option Err × Option Nat :=
  match delta, ret with
  | some d, some r =>
    if tag = 1 then (none, some (d.version % 2^32))
    else if tag = 2 then (none, some (d.type % 2^32))
    else if tag = 3 then (none, some (d.comp % 2^32))
    else if tag = 7 then (none, some (d.tgtSize % 2^32))
    else if tag = 9 then (none, some (d.tgtComp % 2^32))
    else (some .args, some r)
  | _, _ => (some .args, ret)

/-- src/drpm.c:135-167 `drpm_get_ulong`. `unsigned long` has 64 bits. -/
def getUlong (delta : Option Info) (tag : Int) (ret : Option Nat) : Option Err × Option Nat :=
  match delta, ret with
  | some d, some r =>
    if tag = 1 then (none, some (d.version % 2^64))
    else if tag = 2 then (none, some (d.type % 2^64))
    else if tag = 3 then (none, some (d.comp % 2^64))
    else if tag = 7 then (none, some (d.tgtSize % 2^64))
    else if tag = 9 then (none, some (d.tgtComp % 2^64))
    else if tag = 11 then (none, some (d.tgtHeaderLen % 2^64))
    else if tag = 14 then (none, some (d.payloadFmtOff % 2^64))
    else (some .args, some r)
  | _, _ => (some .args, ret)

/-- src/drpm.c:169-207 `drpm_get_ullong`. -/
def getUllong (delta : Option Info) (tag : Int) (ret : Option Nat) : Option Err × Option Nat :=
  match delta, ret with
  | some d, some r =>
    if tag = 1 then (none, some (d.version % 2^64))
    else if tag = 2 then (none, some (d.type % 2^64))
    else if tag = 3 then (none, some (d.comp % 2^64))
    else if tag = 7 then (none, some (d.tgtSize % 2^64))
    else if tag = 9 then (none, some (d.tgtComp % 2^64))
    else if tag = 11 then (none, some (d.tgtHeaderLen % 2^64))
    else if tag = 14 then (none, some (d.payloadFmtOff % 2^64))
    else if tag = 17 then (none, some (d.extDataLen % 2^64))
    else if tag = 18 then (none, some (d.intDataLen % 2^64))
    else (some .args, some r)
  | _, _ => (some .args, ret)

/-- src/drpm.c:216-240: the string of a tag; `none` if the tag has none. -/
def stringOf (d : Info) (tag : Int) : Option (Option Bytes) :=
  if tag = 0 then some (some d.filename)
  else if tag = 4 then some (some d.sequence)
  else if tag = 5 then some (some d.srcNevr)
  else if tag = 6 then some (some d.tgtNevr)
  else if tag = 8 then some (some d.tgtMd5)
  else if tag = 10 then some d.tgtCompParam
  else if tag = 13 then some (some d.tgtLeadsig)
  else none

/-- src/drpm.c:209-251 `drpm_get_string`; the variable holds NULL or a string, `mem` says whether
    the allocation succeeds. -/
def getString (delta : Option Info) (tag : Int) (mem : Bool) (ret : Option (Option Bytes)) :
    Option Err × Option (Option Bytes) :=
  match delta, ret with
  | some d, some r =>
    match stringOf d tag with
    | none => (some .args, some r)
    | some none => (none, some none)
    | some (some s) => if mem then (none, some (some s)) else (some .memory, some none)
  | _, _ => (some .args, ret)

/-- src/drpm.c:260-275: the array of a tag and its size. -/
def arrayOf (d : Info) (tag : Int) : Option (Nat × List Nat) :=
  if tag = 12 then some (d.offadjSize, d.offadj)
  else if tag = 15 then some (d.intSize, d.ints)
  else if tag = 16 then some (d.extSize, d.exts)
  else none

/-- src/drpm.c:283-284, the loop that copies the elements. -/
def copyElems (arr : List Nat) : Nat → Nat → Out (List Nat)
  | 0, _ => .ok []
  | n + 1, i => do
    let x ← rd arr i
    let rest ← copyElems arr n (i + 1)
    .ok (x :: rest)

/-- src/drpm.c:253-288 `drpm_get_ulong_array`; the two variables are the array (NULL or elements)
    and its size, `none` if one of the pointers is NULL. -/
def getUlongArray (delta : Option Info) (tag : Int) (mem : Bool) (ret : Option (Option (List Nat) × Nat)) :
    Out (Option Err × Option (Option (List Nat) × Nat)) :=
  match delta, ret with
  | some d, some r =>
    match arrayOf d tag with
    | none => .ok (some .args, some r)
    | some (size, arr) =>
      if size = 0 then .ok (none, some (none, 0))
      else if mem then do
        let elems ← copyElems arr size 0
        .ok (none, some (some elems, size))
      else .ok (some .memory, some (none, size))
  | _, _ => .ok (some .args, ret)

/-! ## Sequence IDs -/

/-- `strrchr`: the position of the last `c`. -/
def strrchr (c : UInt8) : Bytes → Option Nat
  | [] => none
  | x :: xs =>
    match strrchr c xs with
    | some i => some (i + 1)
    | none => if x = c then some 0 else none

/-- src/drpm_write.c:274-297 `write_seqfile`: the contents of the sequence file. -/
def seqLine (srcNevr sequence : Bytes) : Out Bytes := do
  let h ← hexString sequence
  .ok (srcNevr ++ [45] ++ h ++ [10])

/-- src/drpm.c:863-882: a sequence ID is split into source NEVR and sequence. -/
def splitSeqId (id : Bytes) : Out (Bytes × Bytes) :=
  match strrchr 45 id with
  | none => .err .format
  | some 0 => .err .format
  | some p =>
    if (id.drop (p + 1)).length / 2 < 16 then .err .format else
    match parseHex (id.drop (p + 1)) with
    | none => .err .format
    | some seq => if seq.length = (id.drop (p + 1)).length / 2 then .ok (id.take p, seq) else .err .format

/-- src/drpm_rpm.c:1026-1054: a NEVR string is split into name, epoch (`none` is NULL), version and
    release. -/
def splitNevr (nevr : Bytes) : Out (Bytes × Option Bytes × Bytes × Bytes) :=
  match strrchr 45 nevr with
  | none => .err .format
  | some 0 => .err .format
  | some r =>
    let release := nevr.drop (r + 1)
    let str := nevr.take r
    match strrchr 58 str with
    | some 0 => .err .format
    | none =>
      match strrchr 45 str with
      | none => .err .format
      | some 0 => .err .format
      | some v => .ok (str.take v, none, str.drop (v + 1), release)
    | some v =>
      let version := str.drop (v + 1)
      let str := str.take v
      match strrchr 45 str with
      | none => .err .format
      | some 0 => .err .format
      | some e => .ok (str.take e, some (str.drop (e + 1)), version, release)

end Drpm
