import Verif.Strm
/-!
# The loops around the compression libraries: src/drpm_compstrm.c:100-418, 594-762 and
src/drpm_decompstrm.c:110-240, 450-780

A library is a state and functions for its calls: given input and room for output, a call uses some
of the input, produces some output and returns a code. The functions below are the loops that call
it. Memory for the output never runs out. `fuel` bounds the number of rounds of a loop; running out
of it means that the loop goes on.
-/

namespace Drpm

/-- What one call of a library does: the new state, how many bytes of the input it used, the output,
    and the return code. -/
structure LibStep (σ ρ : Type) where
  st : σ
  used : Nat
  out : Bytes
  ret : ρ

/-- A call with input and room for output (`next_in`/`avail_in`, `next_out`/`avail_out`, or the
    buffers of zstd). -/
abbrev LibCall (σ ρ : Type) := σ → Bytes → Nat → LibStep σ ρ

/-- `CHUNK_SIZE`, src/drpm_private.h:35. -/
def chunkSize : Nat := 1024

/-! ## Return codes -/

/-- zlib's return codes. -/
inductive ZCode where
  | ok | streamEnd | needDict | errno | streamError | dataError | memError | bufError | versionError
deriving DecidableEq

/-- bzip2's return codes. -/
inductive BzCode where
  | ok | runOk | flushOk | finishOk | streamEnd | sequenceError | paramError | memError | dataError
  | dataErrorMagic | ioError | unexpectedEof | outbuffFull | configError
deriving DecidableEq

/-- liblzma's return codes. -/
inductive LzmaCode where
  | ok | streamEnd | noCheck | unsupportedCheck | getCheck | memError | memlimitError | formatError
  | optionsError | dataError | bufError | progError
deriving DecidableEq

/-- What zstd's functions return: an error, or a number (0: complete). -/
inductive ZstdCode where
  | error
  | hint (n : Nat)
deriving DecidableEq

/-- src/drpm_decompstrm.c:567-574: what is made of the code of `inflate`. -/
def inflateVerdict : ZCode → Option Err
  | .dataError | .needDict | .streamError => some .format
  | .memError => some .memory
  | _ => none

/-- src/drpm_decompstrm.c:514-520: what is made of the code of `BZ2_bzDecompress`. -/
def bunzipVerdict : BzCode → Option Err
  | .dataError | .dataErrorMagic => some .format
  | .memError => some .memory
  | _ => none

/-- src/drpm_decompstrm.c:621-634: what is made of the code of `lzma_code` when decompressing. -/
def unlzmaVerdict : LzmaCode → Option Err
  | .ok | .streamEnd => none
  | .formatError | .optionsError | .dataError | .bufError => some .format
  | .memError => some .memory
  | _ => some .other

/-- The codes of `deflate` and `BZ2_bzCompress` are not looked at while writing,
    src/drpm_compstrm.c:622, 648. -/
def ignoreCode {ρ : Type} (_ : ρ) : Option Err := none

/-- src/drpm_compstrm.c:674-681: `lzma_code` while writing. -/
def lzmaVerdict : LzmaCode → Option Err
  | .ok => none
  | .memError => some .memory
  | _ => some .format

/-- src/drpm_compstrm.c:181-190: `lzma_code` while finishing. -/
def lzmaFinVerdict : LzmaCode → Option Err
  | .ok | .streamEnd => none
  | .memError => some .memory
  | _ => some .format

/-- src/drpm_compstrm.c:747, 262 and src/drpm_decompstrm.c:762: `ZSTD_isError`. -/
def zstdVerdict : ZstdCode → Option Err
  | .error => some .other
  | .hint _ => none

/-! ## Calling the library until the output has room left

src/drpm_decompstrm.c:508-530, 561-584, 615-644 and src/drpm_compstrm.c:616-631, 642-657, 668-690:
the same loop six times. -/

/-- The loop `do .. while (avail_out == 0)`: the library's state, the bytes appended to the data, and
    the error. The output of a call that fails is dropped. -/
def roomLoop {σ ρ : Type} (call : LibCall σ ρ) (verdict : ρ → Option Err) :
    Nat → σ → Bytes → Bytes → Out (σ × Bytes × Option Err)
  | 0, _, _, _ => .loop
  | fuel + 1, s, inp, acc =>
    match verdict (call s inp chunkSize).ret with
    | some e => .ok ((call s inp chunkSize).st, acc, some e)
    | none =>
      if chunkSize - (call s inp chunkSize).out.length = 0 then
        roomLoop call verdict fuel (call s inp chunkSize).st (inp.drop (call s inp chunkSize).used)
          (acc ++ (call s inp chunkSize).out)
      else .ok ((call s inp chunkSize).st, acc ++ (call s inp chunkSize).out, none)

/-! ## Calling the library until the input is used up (zstd) -/

/-- src/drpm_decompstrm.c:757-770 and src/drpm_compstrm.c:743-757; `room` is the size that
    `ZSTD_DStreamOutSize`/`ZSTD_CStreamOutSize` recommend. (The first is a `while`, the second a
    `do .. while` loop; the input is not empty, so they do the same.) -/
def inputLoop {σ : Type} (call : LibCall σ ZstdCode) (room : Nat) :
    Nat → σ → Bytes → Bytes → Out (σ × Bytes × Option Err)
  | 0, _, _, _ => .loop
  | fuel + 1, s, inp, acc =>
    if inp.length = 0 then .ok (s, acc, none)
    else
      match zstdVerdict (call s inp room).ret with
      | some e => .ok ((call s inp room).st, acc, some e)
      | none =>
        inputLoop call room fuel (call s inp room).st (inp.drop (call s inp room).used) (acc ++ (call s inp room).out)

/-! ## Decompression -/

/-- The part of `struct decompstrm` (src/drpm_decompstrm.c:50-73) that `read_chunk` uses besides the
    data: the library, `comp_size`, and the bytes fed to the MD5 context. -/
structure UnpackSt (σ : Type) where
  lib : σ
  compSize : Nat
  md5 : Bytes
deriving DecidableEq

/-- One call of `read_chunk` for a piece of input that is not empty: what it appends to the data, the
    code it returns, and the state. src/drpm_decompstrm.c:487-538, 540-592, 594-652, 733-780 around
    the loop. -/
def readPiece {σ : Type} (run : σ → Bytes → Out (σ × Bytes × Option Err)) (s : UnpackSt σ) (piece : Bytes) :
    Out ((Bytes × Option Err) × UnpackSt σ) := do
  let (lib, out, e) ← run s.lib piece
  match e with
  | some e => .ok ((out, some e), { s with lib := lib })
  | none => .ok ((out, none), { lib := lib, compSize := (s.compSize + piece.length) % 2^64, md5 := s.md5 ++ piece })

/-- What successive calls do for the pieces of the input. -/
def readPieces {σ : Type} (run : σ → Bytes → Out (σ × Bytes × Option Err)) :
    UnpackSt σ → List Bytes → Out (Events × UnpackSt σ)
  | s, [] => .ok ([], s)
  | s, b :: bs => do
    let (ev, s) ← readPiece run s b
    let (evs, s) ← readPieces run s bs
    .ok (ev :: evs, s)

/-- src/drpm_decompstrm.c:540-592 `readchunk_gzip`. -/
def gunzip {σ : Type} (inflate : LibCall σ ZCode) (fuel : Nat) : UnpackSt σ → List Bytes → Out (Events × UnpackSt σ) :=
  readPieces (fun s b => roomLoop inflate inflateVerdict fuel s b [])

/-- src/drpm_decompstrm.c:487-538 `readchunk_bzip2`. -/
def bunzip {σ : Type} (bzDecompress : LibCall σ BzCode) (fuel : Nat) :
    UnpackSt σ → List Bytes → Out (Events × UnpackSt σ) :=
  readPieces (fun s b => roomLoop bzDecompress bunzipVerdict fuel s b [])

/-- src/drpm_decompstrm.c:594-652 `readchunk_lzma` (lzma and xz). -/
def unlzma {σ : Type} (lzmaCode : LibCall σ LzmaCode) (fuel : Nat) : UnpackSt σ → List Bytes → Out (Events × UnpackSt σ) :=
  readPieces (fun s b => roomLoop lzmaCode unlzmaVerdict fuel s b [])

/-- src/drpm_decompstrm.c:733-780 `readchunk_zstd`. -/
def unzstd {σ : Type} (decompressStream : LibCall σ ZstdCode) (room fuel : Nat) :
    UnpackSt σ → List Bytes → Out (Events × UnpackSt σ) :=
  readPieces (fun s b => inputLoop decompressStream room fuel s b [])

/-- lzlib's decoder: `LZ_decompress_write_size`, `LZ_decompress_write` (the number of bytes taken, or
    `none` for an error), `LZ_decompress_read` (`none` for an error), `LZ_decompress_finish`,
    `LZ_decompress_finished`, and what `lzip_error` says (src/drpm_decompstrm.c:91-104, 684-688). -/
structure LzDec (σ : Type) where
  writeSize : σ → Nat
  write : σ → Bytes → Option (σ × Nat)
  read : σ → Nat → Option (σ × Bytes)
  finish : σ → σ
  finished : σ → Bool
  error : σ → Err

/-- src/drpm_decompstrm.c:699-707. -/
def lzFeed {σ : Type} (L : LzDec σ) (s : σ) (inp : Bytes) : Option (σ × Nat) :=
  if L.writeSize s > 0 then L.write s inp else some (s, 0)

/-- src/drpm_decompstrm.c:698-720: feeding a piece and taking what is there. -/
def lzPiece {σ : Type} (L : LzDec σ) : Nat → σ → Bytes → Bytes → Out (σ × Bytes × Option Err)
  | 0, _, _, _ => .loop
  | fuel + 1, s, inp, acc =>
    if inp.length = 0 then .ok (s, acc, none)
    else
      match lzFeed L s inp with
      | none => .ok (s, acc, some (L.error s))
      | some (s, n) =>
        match L.read s chunkSize with
        | none => .ok (s, acc, some (L.error s))
        | some (s, o) => lzPiece L fuel s (inp.drop n) (acc ++ o)

/-- src/drpm_decompstrm.c:680-696: taking the rest at the end of the input. -/
def lzRest {σ : Type} (L : LzDec σ) : Nat → σ → Bytes → Out (σ × Bytes × Option Err)
  | 0, _, _ => .loop
  | fuel + 1, s, acc =>
    match L.read s chunkSize with
    | none => .ok (s, acc, some (L.error s))
    | some (s, o) =>
      if L.finished s then .ok (s, acc ++ o, none) else lzRest L fuel s (acc ++ o)

/-- src/drpm_decompstrm.c:655-729 `readchunk_lzip`: the pieces of the input, then one more call at its
    end; from then on the call fails (`lzip_eof`). -/
def unlzip {σ : Type} (L : LzDec σ) (fuel : Nat) (s : UnpackSt σ) (pieces : List Bytes) : Out (Events × UnpackSt σ) := do
  let (ev, s) ← readPieces (fun s b => lzPiece L fuel s b []) s pieces
  let (lib, out, e) ← lzRest L fuel (L.finish s.lib) []
  .ok (ev ++ [(out, e)], { s with lib := lib })

/-! ## Compression -/

/-- `avail_in` of zlib and bzip2 is an `unsigned int`, src/drpm_compstrm.c:617, 643. -/
def avail32 (b : Bytes) : Bytes := b.take (b.length % 2^32)

/-- src/drpm_compstrm.c:636-660 `writechunk_gzip`. -/
def gzWrite {σ : Type} (deflate : LibCall σ ZCode) (fuel : Nat) (s : σ) (b : Bytes) : Out (σ × Bytes × Option Err) :=
  roomLoop deflate ignoreCode fuel s (avail32 b) []

/-- src/drpm_compstrm.c:610-634 `writechunk_bzip2`. -/
def bzWrite {σ : Type} (bzCompress : LibCall σ BzCode) (fuel : Nat) (s : σ) (b : Bytes) :
    Out (σ × Bytes × Option Err) :=
  roomLoop bzCompress ignoreCode fuel s (avail32 b) []

/-- src/drpm_compstrm.c:662-693 `writechunk_lzma` (lzma and xz). -/
def lzmaWrite {σ : Type} (lzmaCode : LibCall σ LzmaCode) (fuel : Nat) (s : σ) (b : Bytes) :
    Out (σ × Bytes × Option Err) :=
  roomLoop lzmaCode lzmaVerdict fuel s b []

/-- src/drpm_compstrm.c:735-762 `writechunk_zstd`. -/
def zstdWrite {σ : Type} (compressStream : LibCall σ ZstdCode) (room fuel : Nat) (s : σ) (b : Bytes) :
    Out (σ × Bytes × Option Err) :=
  inputLoop compressStream room fuel s b []

/-- The loops of the `finish_*` functions, which call the library without input:
    src/drpm_compstrm.c:110-127, 142-159, 175-202, 257-272. `done` is the condition to leave the
    loop, given the code and the length of the output. -/
def finLoop {σ ρ : Type} (call : σ → Nat → LibStep σ ρ) (verdict : ρ → Option Err) (done : ρ → Nat → Bool) (room : Nat) :
    Nat → σ → Bytes → Out (Bytes × Option Err)
  | 0, _, _ => .loop
  | fuel + 1, s, acc =>
    match verdict (call s room).ret with
    | some e => .ok (acc, some e)
    | none =>
      if done (call s room).ret (call s room).out.length then .ok (acc ++ (call s room).out, none)
      else finLoop call verdict done room fuel (call s room).st (acc ++ (call s room).out)

/-- src/drpm_compstrm.c:135-165 `finish_gzip`: until `deflate` leaves room. -/
def gzFinish {σ : Type} (deflate : σ → Nat → LibStep σ ZCode) (fuel : Nat) (s : σ) : Out (Bytes × Option Err) :=
  finLoop deflate ignoreCode (fun _ n => !(chunkSize - n == 0)) chunkSize fuel s []

/-- src/drpm_compstrm.c:102-133 `finish_bzip2`: until `BZ_STREAM_END`. -/
def bzFinish {σ : Type} (bzCompress : σ → Nat → LibStep σ BzCode) (fuel : Nat) (s : σ) : Out (Bytes × Option Err) :=
  finLoop bzCompress ignoreCode (fun c _ => c == .streamEnd) chunkSize fuel s []

/-- src/drpm_compstrm.c:167-208 `finish_lzma`: until `LZMA_STREAM_END`. -/
def lzmaFinish {σ : Type} (lzmaCode : σ → Nat → LibStep σ LzmaCode) (fuel : Nat) (s : σ) : Out (Bytes × Option Err) :=
  finLoop lzmaCode lzmaFinVerdict (fun c _ => c == .streamEnd) chunkSize fuel s []

/-- src/drpm_compstrm.c:248-277 `finish_zstd`: until nothing remains. -/
def zstdFinish {σ : Type} (compressStream : σ → Nat → LibStep σ ZstdCode) (room fuel : Nat) (s : σ) :
    Out (Bytes × Option Err) :=
  finLoop compressStream zstdVerdict (fun c _ => c == .hint 0) room fuel s []

/-- src/drpm_compstrm.c:696-731 `writechunk_lzip`: the same loop as in `readchunk_lzip`, with the
    functions of lzlib's encoder. (`LZ_compress_write` takes an `int`; pieces are shorter than
    2 GiB.) -/
def lzipWrite {σ : Type} (L : LzDec σ) (fuel : Nat) (s : σ) (b : Bytes) : Out (σ × Bytes × Option Err) :=
  lzPiece L fuel s b []

/-- src/drpm_compstrm.c:211-244 `finish_lzip`. -/
def lzipFinish {σ : Type} (L : LzDec σ) (fuel : Nat) (s : σ) : Out (Bytes × Option Err) := do
  let (_, out, e) ← lzRest L fuel (L.finish s) []
  .ok (out, e)

/-- The methods as encoders of a compression stream. An outcome that is not a return is turned into
    an error, so that a success means that nothing else happened. -/
def libEnc {σ : Type} (init : σ) (write : σ → Bytes → Out (σ × Bytes × Option Err)) (fin : σ → Out (Bytes × Option Err)) :
    Enc σ :=
  { init := init
    write := fun s b => match write s b with
      | .ok (s, o, e) => (o, s, e)
      | _ => ([], s, some .other)
    finish := some (fun s => match fin s with
      | .ok r => r
      | _ => ([], some .other)) }

end Drpm
