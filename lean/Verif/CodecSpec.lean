import Verif.Codec
/-!
# What the compression libraries promise (specification)

These are the promises of the manuals of zlib, bzip2, liblzma, lzlib and zstd, for a compressed
stream that is valid: they say nothing about the loops that call the libraries.
-/

namespace Drpm

/-- The codes `inflate` returns for a valid stream. (`Z_BUF_ERROR`: no progress was possible.) -/
def zFine (c : ZCode) : Prop := c = .ok ∨ c = .streamEnd ∨ c = .bufError

/-- The codes `BZ2_bzDecompress` returns for a valid stream. (`BZ_SEQUENCE_ERROR`: called again after
    the end.) -/
def bzFine (c : BzCode) : Prop := c = .ok ∨ c = .streamEnd ∨ c = .sequenceError

/-- The codes `lzma_code` returns for a valid stream. -/
def lzmaFine (c : LzmaCode) : Prop := c = .ok ∨ c = .streamEnd

/-- zlib, bzip2 and liblzma: "decompresses as much data as possible, and stops when the input buffer
    becomes empty or the output buffer becomes full". `R s z p`: in state `s`, what is left of the
    compressed stream is `z`, and what is left to be put out is `p`. -/
structure Inflates {σ ρ : Type} (call : LibCall σ ρ) (fine : ρ → Prop) (R : σ → Bytes → Bytes → Prop) : Prop where
  code : ∀ s z p inp room, R s z p → inp <+: z → 0 < room → fine (call s inp room).ret
  used : ∀ s z p inp room, R s z p → inp <+: z → 0 < room → (call s inp room).used ≤ inp.length
  room : ∀ s z p inp room, R s z p → inp <+: z → 0 < room → (call s inp room).out.length ≤ room
  out : ∀ s z p inp room, R s z p → inp <+: z → 0 < room → (call s inp room).out <+: p
  next : ∀ s z p inp room, R s z p → inp <+: z → 0 < room →
    R (call s inp room).st (z.drop (call s inp room).used) (p.drop (call s inp room).out.length)
  /-- It stops only when the input is used up or the output is full. -/
  stops : ∀ s z p inp room, R s z p → inp <+: z → 0 < room → (call s inp room).out.length < room →
    (call s inp room).used = inp.length
  /-- At the end of the stream everything has been put out, unless the output is full. -/
  complete : ∀ s z p inp room, R s z p → inp <+: z → 0 < room → (call s inp room).out.length < room →
    z.drop (call s inp room).used = [] → p.drop (call s inp room).out.length = []

/-- zstd: "if `output.pos < output.size`, decoder has flushed everything it could. But if
    `output.pos == output.size`, there might be some data left within internal buffers". Given input,
    it makes progress. -/
structure ZstdInflates {σ : Type} (call : LibCall σ ZstdCode) (R : σ → Bytes → Bytes → Prop) : Prop where
  code : ∀ s z p inp room, R s z p → inp <+: z → 0 < room → (call s inp room).ret ≠ .error
  used : ∀ s z p inp room, R s z p → inp <+: z → 0 < room → (call s inp room).used ≤ inp.length
  room : ∀ s z p inp room, R s z p → inp <+: z → 0 < room → (call s inp room).out.length ≤ room
  out : ∀ s z p inp room, R s z p → inp <+: z → 0 < room → (call s inp room).out <+: p
  next : ∀ s z p inp room, R s z p → inp <+: z → 0 < room →
    R (call s inp room).st (z.drop (call s inp room).used) (p.drop (call s inp room).out.length)
  progress : ∀ s z p inp room, R s z p → inp <+: z → 0 < room → inp ≠ [] →
    0 < (call s inp room).used ∨ (call s inp room).out ≠ []
  complete : ∀ s z p inp room, R s z p → inp <+: z → 0 < room → (call s inp room).out.length < room →
    z.drop (call s inp room).used = [] → p.drop (call s inp room).out.length = []

/-- lzlib. `R s z p f`: `z` is left of the stream, `p` is left to be put out, `f` tells whether
    `LZ_decompress_finish` was called. -/
structure LzInflates {σ : Type} (L : LzDec σ) (R : σ → Bytes → Bytes → Bool → Prop) : Prop where
  /-- If there is room for input, some of it is taken. -/
  write : ∀ s z p inp, R s z p false → inp <+: z → inp ≠ [] → 0 < L.writeSize s →
    ∃ s' k, L.write s inp = some (s', k) ∧ 0 < k ∧ k ≤ inp.length ∧ R s' (z.drop k) p false
  /-- Reading gives the next bytes; at least one if there is no room for input. -/
  read : ∀ s z p room, R s z p false → 0 < room → ∃ s' o, L.read s room = some (s', o) ∧ o.length ≤ room ∧ o <+: p ∧
    R s' z (p.drop o.length) false ∧ (L.writeSize s = 0 → o ≠ [])
  finish : ∀ s p, R s [] p false → R (L.finish s) [] p true
  /-- After the end, reading gives the next bytes until it has finished. -/
  rest : ∀ s p room, R s [] p true → 0 < room → ∃ s' o, L.read s room = some (s', o) ∧ o.length ≤ room ∧ o <+: p ∧
    R s' [] (p.drop o.length) true ∧ (L.finished s' = true → p.drop o.length = []) ∧ (L.finished s' = false → o ≠ [])

/-- Compression: `R s x y`: in state `s` the library was given `x` and has put out `y`; it never puts
    out more than `B` of the length of its input. -/
structure Deflates {σ ρ : Type} (call : LibCall σ ρ) (fine : ρ → Prop) (B : Nat → Nat) (R : σ → Bytes → Bytes → Prop) :
    Prop where
  code : ∀ s x y inp room, R s x y → 0 < room → fine (call s inp room).ret
  used : ∀ s x y inp room, R s x y → 0 < room → (call s inp room).used ≤ inp.length
  room : ∀ s x y inp room, R s x y → 0 < room → (call s inp room).out.length ≤ room
  next : ∀ s x y inp room, R s x y → 0 < room →
    R (call s inp room).st (x ++ inp.take (call s inp room).used) (y ++ (call s inp room).out)
  /-- It stops only when the input is used up or the output is full. -/
  stops : ∀ s x y inp room, R s x y → 0 < room → (call s inp room).out.length < room →
    (call s inp room).used = inp.length
  bound : ∀ s x y, R s x y → y.length ≤ B x.length

/-- Finishing a compressed stream: `F s x y` as above, once finishing has begun. When the library says
    that it is done (`done`), `y` is a compressed form of `x`; until then it puts out something. -/
structure Finishes {σ ρ : Type} (call : σ → Nat → LibStep σ ρ) (fine : ρ → Prop) (done : ρ → Nat → Prop) (room : Nat)
    (B : Nat → Nat) (Valid : Bytes → Bytes → Prop) (F : σ → Bytes → Bytes → Prop) : Prop where
  code : ∀ s x y, F s x y → fine (call s room).ret
  next : ∀ s x y, F s x y → F (call s room).st x (y ++ (call s room).out)
  valid : ∀ s x y, F s x y → done (call s room).ret (call s room).out.length → Valid x (y ++ (call s room).out)
  progress : ∀ s x y, F s x y → ¬ done (call s room).ret (call s room).out.length → (call s room).out ≠ []
  bound : ∀ s x y, F s x y → y.length ≤ B x.length

/-- lzlib's encoder. -/
structure LzDeflates {σ : Type} (L : LzDec σ) (B : Nat → Nat) (Valid : Bytes → Bytes → Prop)
    (R : σ → Bytes → Bytes → Bool → Prop) : Prop where
  write : ∀ s x y inp, R s x y false → inp ≠ [] → 0 < L.writeSize s →
    ∃ s' k, L.write s inp = some (s', k) ∧ 0 < k ∧ k ≤ inp.length ∧ R s' (x ++ inp.take k) y false
  read : ∀ s x y room, R s x y false → 0 < room → ∃ s' o, L.read s room = some (s', o) ∧ R s' x (y ++ o) false ∧
    (L.writeSize s = 0 → o ≠ [])
  finish : ∀ s x y, R s x y false → R (L.finish s) x y true
  rest : ∀ s x y room, R s x y true → 0 < room → ∃ s' o, L.read s room = some (s', o) ∧ R s' x (y ++ o) true ∧
    (L.finished s' = true → Valid x (y ++ o)) ∧ (L.finished s' = false → o ≠ [])
  bound : ∀ s x y f, R s x y f → y.length ≤ B x.length

/-! ## What a stream that was opened on a compressed file gives -/

/-- Reading from `total` at `pos`: a read that fits returns the next bytes, one that does not fails and
    leaves the position alone. -/
def wholeReads (total : Bytes) : Nat → List Nat → List (Except Err Bytes)
  | _, [] => []
  | pos, n :: ns =>
    if pos + n ≤ total.length then .ok ((total.drop pos).take n) :: wholeReads total (pos + n) ns
    else .error .format :: wholeReads total pos ns

/-- `p` can be read from the stream, by any sequence of reads or all at once; the size and the digest
    of the compressed data, which are asked for afterwards, are those of all of `z`. -/
structure ReadsWhole {σ : Type} (z p : Bytes) (r : Out (Events × UnpackSt σ)) : Prop where
  gives : ∃ ev s, r = .ok (ev, s) ∧ s.compSize = z.length ∧ s.md5 = z ∧
    (∃ t, dsReadAll (dsInit ev) = .ok (.ok p, t)) ∧
    ∀ ns : List Nat, (∀ n ∈ ns, p.length + n < 2^64) → ∃ t, dsReads (dsInit ev) ns = .ok (wholeReads p 0 ns, t)

/-! ## Failures -/

/-- The codes with which `inflate` reports that it cannot go on (zlib.h). -/
def zFailed (c : ZCode) : Prop := c = .needDict ∨ c = .dataError ∨ c = .streamError ∨ c = .memError

/-- The codes with which `BZ2_bzDecompress` reports that it cannot go on. -/
def bzFailed (c : BzCode) : Prop := c = .dataError ∨ c = .dataErrorMagic ∨ c = .memError

/-- A library that notes the codes it returned. -/
def logCall {σ ρ : Type} (call : LibCall σ ρ) : LibCall (σ × List ρ) ρ :=
  fun s inp room =>
    let r := call s.1 inp room
    { st := (r.st, s.2 ++ [r.ret]), used := r.used, out := r.out, ret := r.ret }

/-- The state after `n` calls without input. -/
def afterCalls {σ ρ : Type} (call : σ → Nat → LibStep σ ρ) (room : Nat) (s : σ) : Nat → σ
  | 0 => s
  | n + 1 => afterCalls call room (call s room).st n

/-- What the first `n` calls without input put out. -/
def outOfCalls {σ ρ : Type} (call : σ → Nat → LibStep σ ρ) (room : Nat) (s : σ) : Nat → Bytes
  | 0 => []
  | n + 1 => (call s room).out ++ outOfCalls call room (call s room).st n

/-- lzlib was given `inp` and put out `out`, and no call failed. -/
inductive LzRuns {σ : Type} (L : LzDec σ) : σ → Bytes → Bytes → σ → Prop
  | done (s : σ) : LzRuns L s [] [] s
  | full {s s' t : σ} {inp o out : Bytes} : inp ≠ [] → L.writeSize s = 0 → L.read s chunkSize = some (s', o) →
      LzRuns L s' inp out t → LzRuns L s inp (o ++ out) t
  | step {s s1 s' t : σ} {inp o out : Bytes} {n : Nat} : inp ≠ [] → 0 < L.writeSize s → L.write s inp = some (s1, n) →
      L.read s1 chunkSize = some (s', o) → LzRuns L s' (inp.drop n) out t → LzRuns L s inp (o ++ out) t

/-- lzlib put out `out` and then had finished, and no call failed. -/
inductive LzEnds {σ : Type} (L : LzDec σ) : σ → Bytes → σ → Prop
  | last {s s' : σ} {o : Bytes} : L.read s chunkSize = some (s', o) → L.finished s' = true → LzEnds L s o s'
  | more {s s' t : σ} {o out : Bytes} : L.read s chunkSize = some (s', o) → L.finished s' = false →
      LzEnds L s' out t → LzEnds L s (o ++ out) t

end Drpm
