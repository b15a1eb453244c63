import Verif.Utils
import Verif.CompCode
/-!
# The delta file: src/drpm_write.c (writer) and src/drpm_read.c (reader)

The writer is modelled up to the plain text that it hands to the compression stream and the bytes
of the file; the reader from the bytes of the file.  The codecs and the RPM head of a standard
delta (written and parsed by rpmlib) are parameters.
-/

namespace Drpm

/-- `DRPM_TYPE_STANDARD`, `DRPM_TYPE_RPMONLY` (src/drpm.h). -/
inductive DType where
  | standard | rpmonly
deriving DecidableEq, Repr

/-- src/drpm_private.h:280-318 `struct deltarpm`. Buffers are byte lists, so the `*_len` members of
    plain buffers are their lengths. Arrays of pairs are lists of pairs; their `*_count` members are
    kept separately because the reader can make them differ. `intPtrs` is
    `int_data.ptrs` (with `int_data_as_ptrs`), each pointer standing for the bytes it points to,
    `intBytes` is `int_data.bytes`. `filename` and `head.tgt_rpm` are left out. -/
structure Delta where
  type : DType
  comp : Nat
  tgtNevr : Bytes
  version : Nat
  srcNevr : Bytes
  sequence : Bytes
  tgtMd5 : Bytes
  tgtSize : Nat
  tgtComp : Nat
  tgtCompLevel : Nat
  tgtCompParam : Bytes
  tgtHeaderLen : Nat
  offadjCount : Nat
  offadj : List (Nat × Nat)
  tgtLeadsig : Bytes
  payloadFmtOff : Nat
  intCount : Nat
  extCount : Nat
  ints : List (Nat × Nat)
  exts : List (Nat × Nat)
  extDataLen : Nat
  addData : Bytes
  intDataLen : Nat
  intPtrs : Option (List Bytes)
  intBytes : Bytes
deriving DecidableEq, Repr

/-! ## Sign and magnitude -/

/-- src/drpm_write.c:132-134 and 160-162: `(int32_t)x < 0 ? TWOS_COMPLEMENT(x) | INT32_MIN : x`. -/
def smEncode (x : Nat) : Nat :=
  if s32 x < 0 then twosComplement32 x ||| 2^31 else x

/-- src/drpm_read.c:205-206 and 267-268:
    `if ((x & INT32_MIN) != 0) x = TWOS_COMPLEMENT(x ^ INT32_MIN)`. -/
def smDecode (x : Nat) : Nat :=
  if x &&& 2^31 ≠ 0 then twosComplement32 (x ^^^ 2^31) else x

/-! ## Writer -/

/-- src/drpm_write.c:88-91: "DLT" and the version digit (a `char`). -/
def versionBytes (v : Nat) : Bytes := [68, 76, 84, UInt8.ofNat (48 + v)]

/-- The loops `for (i = 0; i < size; i += 2) write_be32(arr[i])` (`sel = Prod.fst`) and
    `for (j = 1; j < size; j += 2) ...` (`sel = Prod.snd`), src/drpm_write.c:127-136, 150-168;
    `n` elements are left, `i` is the index of the pair. Reading outside the array is undefined. -/
def writeElems (arr : List (Nat × Nat)) (sel : Nat × Nat → Nat) : Nat → Nat → Out Bytes
  | 0, _ => .ok []
  | n + 1, i => do
    let p ← rd arr i
    let rest ← writeElems arr sel n (i + 1)
    .ok (createBe32 (sel p) ++ rest)

/-- Number of rounds of those loops: the size is `count * 2` in `uint32_t`
    (src/drpm_write.c:126, 147-148), always even. -/
def pairRounds (count : Nat) : Nat := (count * 2 % 2^32) / 2

/-- `strlen + 1` stored in a `uint32_t` and that many bytes of the string with its NUL,
    src/drpm_write.c:94, 98-99 and 241-247. -/
def writeCStr (s : Bytes) : Bytes :=
  createBe32 ((s.length + 1) % 2^32) ++ (s ++ [0]).take ((s.length + 1) % 2^32)

/-- src/drpm_write.c:100-101, 113-114, 140-141, 179-180: length and bytes of a buffer whose length
    member is a `uint32_t`. -/
def writeBuf (b : Bytes) : Bytes := createBe32 b.length ++ b

/-- src/drpm_write.c:117-137, the part written for version 3 only. -/
def writeV3 (d : Delta) : Out Bytes :=
  if d.version ≥ 3 then do
    let ev ← writeElems d.offadj (fun p => p.1) (pairRounds d.offadjCount) 0
    let od ← writeElems d.offadj (fun p => smEncode p.2) (pairRounds d.offadjCount) 0
    .ok (createBe32 d.tgtHeaderLen ++ createBe32 d.offadjCount ++ ev ++ od)
  else .ok []

/-- src/drpm_write.c:105-138, the part written for version 2 and 3. -/
def writeV2 (d : Delta) : Out Bytes :=
  if d.version ≥ 2 then
    match encodeComp d.tgtComp d.tgtCompLevel with
    | none => .err .prog
    | some c => do
      let v3 ← writeV3 d
      .ok (createBe32 d.tgtSize ++ createBe32 c ++ writeBuf d.tgtCompParam ++ v3)
  else .ok []

/-- src/drpm_write.c:170-176, 187-193: a 64-bit length, or its low 32 bits before version 3. -/
def writeLen (version n : Nat) : Bytes :=
  if version ≥ 3 then createBe64 n else createBe32 (n % 2^32)

/-- src/drpm_write.c:178-185: the add block is inside the stream for standard deltas only. -/
def writeAdd (d : Delta) : Bytes :=
  match d.type with
  | .standard => writeBuf d.addData
  | .rpmonly => createBe32 0

/-- src/drpm_write.c:196-200: the internal data given as one pointer per internal copy. -/
def writePtrs (ptrs : List Bytes) (ints : List (Nat × Nat)) : Nat → Nat → Out Bytes
  | 0, _ => .ok []
  | n + 1, i => do
    let c ← rd ints i
    let p ← rd ptrs i
    let b ← rdBlk p 0 c.2
    let rest ← writePtrs ptrs ints n (i + 1)
    .ok (b ++ rest)

/-- src/drpm_write.c:195-204. -/
def writeIntData (d : Delta) : Out Bytes :=
  match d.intPtrs with
  | some ptrs => writePtrs ptrs d.ints d.intCount 0
  | none => rdBlk d.intBytes 0 d.intDataLen

/-- src/drpm_write.c:88-204: the bytes handed to the compression stream, in order. -/
def writeStream (d : Delta) : Out Bytes := do
  let v2 ← writeV2 d
  let ie ← writeElems d.ints (fun p => p.1) (pairRounds d.intCount) 0
  let io ← writeElems d.ints (fun p => p.2) (pairRounds d.intCount) 0
  let ee ← writeElems d.exts (fun p => smEncode p.1) (pairRounds d.extCount) 0
  let eo ← writeElems d.exts (fun p => p.2) (pairRounds d.extCount) 0
  let data ← writeIntData d
  .ok (versionBytes d.version ++ writeCStr d.srcNevr ++ writeBuf d.sequence ++ d.tgtMd5 ++ v2 ++
    writeBuf d.tgtLeadsig ++ createBe32 d.payloadFmtOff ++ createBe32 d.intCount ++
    createBe32 d.extCount ++ ie ++ io ++ ee ++ eo ++ writeLen d.version d.extDataLen ++
    writeAdd d ++ writeLen d.version d.intDataLen ++ data)

/-- The head of the file: src/drpm_write.c:235-255 for rpm-only deltas; for standard deltas the
    lead, signature and header written by `rpm_write` (lines 211-224), here a parameter. -/
def writeHead (d : Delta) (rpmHead : Bytes) : Bytes :=
  match d.type with
  | .standard => rpmHead
  | .rpmonly => [100, 114, 112, 109] ++ versionBytes d.version ++ writeCStr d.tgtNevr ++
      writeBuf d.addData

/-- src/drpm_write.c:211-224: lead, signature and header are only made for standard deltas;
    making them may fail. -/
def standardPart (d : Delta) (rpmHead : Bytes → Out Bytes) (z : Bytes) : Out Bytes :=
  match d.type with
  | .standard => rpmHead z
  | .rpmonly => .ok []

/-- src/drpm_write.c:67-272 `write_deltarpm`: the contents of the delta file. `compress` is the
    compression stream (type and level as in `compstrm_init`, line 96). `rpmHead` are the lead,
    signature and header of a standard delta, given its compressed part. Failing system calls are
    not modelled. -/
def writeDelta (compress : Bytes → Out Bytes) (rpmHead : Bytes → Out Bytes) (d : Delta) : Out Bytes := do
  let s ← writeStream d
  let z ← compress s
  let h ← standardPart d rpmHead z
  .ok (writeHead d h ++ z)

theorem writeDelta_total (compress : Bytes → Out Bytes) (rpmW : Bytes → Bytes) (d : Delta) :
    writeDelta compress (fun z => .ok (rpmW z)) d =
      (writeStream d >>= fun s => compress s >>= fun z => .ok (writeHead d (rpmW z) ++ z)) := by
  unfold writeDelta standardPart writeHead
  cases d.type <;> rfl

/-! ## Reader -/

/-- A reader of a byte stream: value and remaining bytes. -/
def P (α : Type) := Bytes → Out (α × Bytes)

namespace P
/-- Sequencing of readers. -/
def bind {α β : Type} (p : P α) (f : α → P β) : P β := fun s => (p s) >>= fun r => f r.1 r.2
instance : Monad P where
  pure a := fun s => .ok (a, s)
  bind := P.bind
/-- Stop with an error. -/
def fail {α : Type} (e : Err) : P α := fun _ => .err e
/-- Undefined behaviour. -/
def ub {α : Type} : P α := fun _ => .ub

theorem bind_run {α β : Type} (p : P α) (f : α → P β) (s : Bytes) :
    (p >>= f) s = ((p s) >>= fun r => f r.1 r.2) := rfl
theorem pure_run {α : Type} (a : α) (s : Bytes) : (pure a : P α) s = .ok (a, s) := rfl
theorem fail_run {α : Type} (e : Err) (s : Bytes) : (fail e : P α) s = .err e := rfl
end P

/-- src/drpm_decompstrm.c:388-408 `decompstrm_read` seen from its caller: the next `n` bytes of the
    decompressed data, or an error if there are not that many. (`Verif/Strm.lean` models the
    chunked stream itself and proves this view; the error there is the one of the chunk reader,
    `DRPM_ERR_FORMAT` at the end of the data, or `DRPM_ERR_OVERFLOW`.) -/
def rdN (n : Nat) : P Bytes := fun s =>
  if n ≤ s.length then .ok (s.take n, s.drop n) else .err .format

/-- src/drpm_decompstrm.c:355-369 `decompstrm_read_be32`. -/
def rdBe32 : P Nat := fun s => (rdN 4 s) >>= fun r => (be32At r.1) >>= fun v => .ok (v, r.2)

/-- src/drpm_decompstrm.c:371-385 `decompstrm_read_be64`. -/
def rdBe64 : P Nat := fun s => (rdN 8 s) >>= fun r => (be64At r.1) >>= fun v => .ok (v, r.2)

/-- `decompstrm_read(stream, n, buf)` into a buffer of `cap` bytes: nothing is copied unless all
    bytes are there; copying more than `cap` bytes is undefined. -/
def rdInto (cap n : Nat) : P Bytes := do
  let b ← rdN n
  if n ≤ cap then pure b else P.ub

/-- src/drpm_read.c:124-132: `malloc(src_nevr_len + 1)` in `uint32_t` arithmetic, the read, and the
    store of the NUL at `[src_nevr_len]`. The string is what `strlen` sees afterwards. -/
def rdNevr (len : Nat) : P Bytes := do
  let b ← rdInto ((len + 1) % 2^32) len
  if len < (len + 1) % 2^32 then pure (b.takeWhile (· ≠ 0)) else P.ub

/-- The loops `for (i = 0; i < size; i += 2) read_be32(arr + i)` with `i` starting at 0 or 1,
    src/drpm_read.c:199-207, 251-256, 264-272. `cap` is the size of `arr` in bytes, `n` the rounds
    left; a store outside is undefined. `size` is even and below 2^32, so `i` does not wrap. -/
def rdElems (cap : Nat) (conv : Nat → Nat) : Nat → Nat → P (List Nat)
  | 0, _ => pure []
  | n + 1, i => do
    let v ← rdBe32
    let _ ← (if i * 4 + 4 ≤ cap then pure () else P.ub : P Unit)
    let rest ← rdElems cap conv n (i + 2)
    pure (conv v :: rest)

/-- An array of pairs: `size = count * 2` and the allocation `size * 4`, both in `uint32_t`;
    first all first components, then all second ones (src/drpm_read.c:193-208, 243-273).
    `malloc(0)` is taken to return a valid empty buffer. -/
def rdPairs (count : Nat) (conv1 conv2 : Nat → Nat) : P (List (Nat × Nat)) := do
  let a ← rdElems ((count * 2 % 2^32) * 4 % 2^32) conv1 (pairRounds count) 0
  let b ← rdElems ((count * 2 % 2^32) * 4 % 2^32) conv2 (pairRounds count) 1
  pure (a.zip b)

/-- A length followed by that many bytes in a buffer of exactly that size, e.g.
    src/drpm_read.c:173-184. -/
def rdBuf : P Bytes := do
  let n ← rdBe32
  rdInto n n

/-- src/drpm_read.c:186-209. -/
def rdV3 (d : Delta) : P Delta :=
  if d.version = 3 then do
    let hl ← rdBe32
    let oc ← rdBe32
    let oa ← rdPairs oc id smDecode
    pure { d with tgtHeaderLen := hl, offadjCount := oc, offadj := oa }
  else pure d

/-- `deltarpm_decode_comp` failing is a format error, src/drpm_read.c:166-169. -/
def rdTgtComp (c : Nat) : P (Nat × Nat) :=
  match decodeComp c with
  | none => P.fail .format
  | some r => pure r

/-- src/drpm_read.c:160-210. -/
def rdV2 (d : Delta) : P Delta :=
  if d.version ≥ 2 then do
    let size ← rdBe32
    let c ← rdBe32
    let cl ← rdTgtComp c
    let param ← rdBuf
    rdV3 { d with tgtSize := size, tgtComp := cl.1, tgtCompLevel := cl.2, tgtCompParam := param }
  else pure d

/-- src/drpm_read.c:103-117: magic, version digit as `unsigned short`, rpm-only needs version 3. -/
def rdVersion (t : DType) : P Nat := do
  let w ← rdBe32
  if w >>> 8 ≠ 0x444C54 then P.fail .format else
  let v := (w % 256 + 2^16 - 48) % 2^16
  if v < 3 ∧ t = .rpmonly then P.fail .format else pure v

/-- src/drpm_read.c:136-154. -/
def rdSequence (t : DType) : P Bytes := do
  let n ← rdBe32
  if n < 16 ∨ (n ≠ 16 ∧ t = .rpmonly) then P.fail .format else rdInto n n

/-- src/drpm_read.c:220-234; `RPM_LEADSIG_MIN_LEN` is 112. -/
def rdLeadsig : P Bytes := do
  let n ← rdBe32
  if n < 112 then P.fail .format else rdInto n n

/-- src/drpm_read.c:275-283, 307-314. -/
def rdLen (version : Nat) : P Nat := if version = 3 then rdBe64 else rdBe32

/-- src/drpm_read.c:287-303. `keep` is the add data already read from the head of an rpm-only
    delta. -/
def rdAdd (t : DType) (keep : Bytes) : P Bytes := do
  let n ← rdBe32
  if n > 0 then
    if t = .rpmonly then P.fail .format else rdInto n n
  else pure keep

/-- src/drpm_read.c:333-340: the internal copies against the length of the internal data. -/
def intCheck (limit : Nat) : Nat → List (Nat × Nat) → Bool
  | _, [] => true
  | off, (_, n) :: rest =>
    let off := (off + n) % 2^64
    if off > limit then false else intCheck limit off rest

/-- src/drpm_read.c:343-355: the external copies against the length of the external data, in
    `uint64_t` arithmetic. -/
def extCheck (limit : Nat) : Nat → List (Nat × Nat) → Bool
  | _, [] => true
  | off, (w, n) :: rest =>
    let off := u64OfInt ((off : Int) + s32 w)
    if off > limit then false else
    let off := (off + n) % 2^64
    if off = 0 ∨ off > limit then false else extCheck limit off rest

/-- src/drpm_read.c:332-355 as one step. -/
def rdChecks (d : Delta) : P Delta :=
  if intCheck d.intDataLen 0 d.ints then
    if extCheck d.extDataLen 0 d.exts then pure d else P.fail .format
  else P.fail .format

/-- src/drpm_read.c:212-216: an rpm-only delta must contain the header. -/
def rdHeaderGuard (d : Delta) : P Unit :=
  if d.tgtHeaderLen = 0 ∧ d.type = .rpmonly then P.fail .format else pure ()

/-- src/drpm_read.c:101-158: version, source NEVR, sequence, target MD5. -/
def rdPart1 (d : Delta) : P Delta := do
  let v ← rdVersion d.type
  let nl ← rdBe32
  let nevr ← rdNevr nl
  let seq ← rdSequence d.type
  let md5 ← rdInto 16 16
  pure { d with version := v, srcNevr := nevr, sequence := seq, tgtMd5 := md5 }

/-- src/drpm_read.c:212-273: lead and signature, payload format offset, copies. -/
def rdPart3 (d : Delta) : P Delta := do
  rdHeaderGuard d
  let ls ← rdLeadsig
  let pf ← rdBe32
  let ic ← rdBe32
  let ec ← rdBe32
  let is ← rdPairs ic id id
  let es ← rdPairs ec smDecode id
  pure { d with tgtLeadsig := ls, payloadFmtOff := pf, intCount := ic, extCount := ec,
                ints := is, exts := es }

/-- src/drpm_read.c:275-330: lengths, add data and internal data. `int_data_len > SIZE_MAX` is
    impossible with 64-bit `size_t`. -/
def rdPart4 (d : Delta) : P Delta := do
  let el ← rdLen d.version
  let ad ← rdAdd d.type d.addData
  let il ← rdLen d.version
  let ib ← rdInto il il
  pure { d with extDataLen := el, addData := ad, intDataLen := il, intPtrs := none, intBytes := ib }

/-- src/drpm_read.c:101-361 `readdelta_rest` after the decompression stream was opened; `d` is what
    is known from the head of the file. -/
def rdRest (d : Delta) : P Delta := do
  let d ← rdPart1 d
  let d ← rdV2 d
  let d ← rdPart3 d
  let d ← rdPart4 d
  rdChecks d

/-- `read(2)` of `n` bytes from a regular file into a buffer of `cap` bytes: the kernel stores as
    many bytes as there are (at most 0x7ffff000), storing more than `cap` is undefined; a short
    count is `DRPM_ERR_FORMAT` (src/drpm_read.c:385-389, 401-405). -/
def sysRead (cap n : Nat) : P Bytes := fun s =>
  if min (min n s.length) 0x7ffff000 > cap then .ub
  else if min (min n s.length) 0x7ffff000 ≠ n then .err .format
  else .ok (s.take n, s.drop n)

/-- src/drpm_read.c:43-59 `read_be32` on the file. -/
def fileBe32 : P Nat := fun s => (sysRead 4 4 s) >>= fun r => (be32At r.1) >>= fun v => .ok (v, r.2)

/-- src/drpm_read.c:380-391: `malloc(tgt_nevr_len + 1)` in `uint32_t`, read, store of the NUL. -/
def fileNevr (len : Nat) : P Bytes := do
  let b ← sysRead ((len + 1) % 2^32) len
  if len < (len + 1) % 2^32 then pure (b.takeWhile (· ≠ 0)) else P.ub

/-- src/drpm_read.c:374-375: `MAGIC_DLT3`. -/
def fileVersion : P Unit := do
  let v ← fileBe32
  if v ≠ 0x444C5433 then P.fail .format else pure ()

/-- src/drpm_read.c:364-408 `readdelta_rpmonly`. -/
def rdRpmonlyHead (d : Delta) : P Delta := do
  fileVersion
  let n ← fileBe32
  let nevr ← fileNevr n
  let an ← fileBe32
  let add ← sysRead an an
  pure { d with tgtNevr := nevr, addData := add }

/-- The zero-initialised `struct deltarpm delta = {0}` of the callers (src/drpm.c:68, 501). -/
def Delta.zero : Delta :=
  { type := .standard, comp := 0, tgtNevr := [], version := 0, srcNevr := [], sequence := [],
    tgtMd5 := List.replicate 16 0, tgtSize := 0, tgtComp := 0, tgtCompLevel := 0,
    tgtCompParam := [], tgtHeaderLen := 0, offadjCount := 0, offadj := [], tgtLeadsig := [],
    payloadFmtOff := 0, intCount := 0, extCount := 0, ints := [], exts := [], extDataLen := 0,
    addData := [], intDataLen := 0, intPtrs := none, intBytes := [] }

/-- src/drpm_decompstrm.c:43-48 and 281-331: the method recognised from the first eight bytes
    (as one big-endian number), in the order the code asks. -/
def detectComp (magic : Nat) : Comp :=
  if magic >>> 48 = 0x1F8B then .gzip
  else if magic >>> 40 = 0x425A68 then .bzip2
  else if magic >>> 16 = 0xFD377A585A00 then .xz
  else if magic >>> 40 = 0x5D0000 then .lzma
  else if magic >>> 32 = 0x4C5A4950 then .lzip
  else if magic >>> 32 = 0x28B52FFD then .zstd
  else .none

/-- What the decoders deliver: for a method and the compressed bytes, the decompressed data that
    can be read before the stream ends or fails. A parameter. -/
abbrev Decoder := Comp → Bytes → Bytes

/-- src/drpm_decompstrm.c:266-337 `decompstrm_init` on a file positioned at `z`: the method, and
    the data that can be read. Fewer than eight bytes are `DRPM_ERR_FORMAT`
    (src/drpm_read.c:62-78). Without compression the data are the bytes themselves
    (src/drpm_decompstrm.c:453-485). -/
def openStream (dec : Decoder) (z : Bytes) : Out (Comp × Bytes) :=
  if z.length < 8 then .err .format else do
  let m ← be64At z
  match detectComp m with
  | .none => .ok (.none, z)
  | c => .ok (c, dec c z)

/-- src/drpm_read.c:433-481 `read_deltarpm` on the contents of the file. `rpmHead` is what rpmlib
    makes of the file: the size of lead, signature and header, and the payload compression
    (src/drpm_read.c:411-430 `readdelta_standard`). -/
def readDelta (dec : Decoder) (rpmHead : Bytes → Out (Nat × Nat)) (file : Bytes) : Out Delta := do
  let (magic, rest) ← fileBe32 file
  if magic = 0x6472706D then do
    let (d, rest) ← rdRpmonlyHead { Delta.zero with type := .rpmonly } rest
    let (c, s) ← openStream dec rest
    let (d, _) ← rdRest { d with comp := c.code } s
    .ok d
  else if magic = 0xEDABEEDB then do
    let (size, comp) ← rpmHead file
    let (c, s) ← openStream dec (file.drop size)
    let (d, _) ← rdRest { Delta.zero with type := .standard, tgtComp := comp, comp := c.code } s
    .ok d
  else .err .format

end Drpm
