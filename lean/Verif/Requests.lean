import Verif.Format
/-!
# The memory asked for while a delta is read: src/drpm_read.c

The readers of `Verif/Format.lean` once more, each `malloc` of the code now leaving its argument in
a list. The requests are granted here; what a refused one leads to (`DRPM_ERR_MEMORY`) is the
subject of `Verif/OwnRead.lean`. The buffers of the decompression stream itself, which hold what has
been decompressed, and those of rpmlib are not in the list.
-/

namespace Drpm

/-- A reader that also tells which blocks of memory were asked for, in order. -/
def PM (α : Type) := Bytes → List Nat × Out (α × Bytes)

namespace PM
/-- Sequencing: after a failure nothing more is asked for. -/
def bind {α β : Type} (p : PM α) (f : α → PM β) : PM β := fun s =>
  match (p s).2 with
  | .ok r => ((p s).1 ++ (f r.1 r.2).1, (f r.1 r.2).2)
  | .err e => ((p s).1, .err e)
  | .ub => ((p s).1, .ub)
  | .loop => ((p s).1, .loop)
instance : Monad PM where
  pure a := fun s => ([], .ok (a, s))
  bind := PM.bind
/-- A reader that asks for no memory. -/
def of {α : Type} (p : P α) : PM α := fun s => ([], p s)
/-- `malloc(n)`. -/
def ask (n : Nat) : PM Unit := fun s => ([n], .ok ((), s))
end PM

/-- src/drpm_read.c:121-132: the source NEVR, `malloc(src_nevr_len + 1)`. -/
def rdNevrM : PM Bytes := do
  let n ← PM.of rdBe32
  PM.ask ((n + 1) % 2^32)
  PM.of (rdNevr n)

/-- `n` bytes into a block of their own, if there are any: src/drpm_read.c:176-184, 292-303,
    321-329. -/
def rdBlockM (n : Nat) : PM Bytes := do
  if n > 0 then PM.ask n else pure ()
  PM.of (rdInto n n)

/-- src/drpm_read.c:193-208, 243-273: `malloc(size * 4)` in `uint32_t` arithmetic. -/
def rdPairsM (count : Nat) (conv1 conv2 : Nat → Nat) : PM (List (Nat × Nat)) := do
  if count * 2 % 2^32 > 0 then PM.ask (count * 2 % 2^32 * 4 % 2^32) else pure ()
  PM.of (rdPairs count conv1 conv2)

/-- src/drpm_read.c:173-184. -/
def rdBufM : PM Bytes := do
  let n ← PM.of rdBe32
  rdBlockM n

/-- src/drpm_read.c:186-209. -/
def rdV3M (d : Delta) : PM Delta :=
  if d.version = 3 then do
    let hl ← PM.of rdBe32
    let oc ← PM.of rdBe32
    let oa ← rdPairsM oc id smDecode
    pure { d with tgtHeaderLen := hl, offadjCount := oc, offadj := oa }
  else pure d

/-- src/drpm_read.c:160-210. -/
def rdV2M (d : Delta) : PM Delta :=
  if d.version ≥ 2 then do
    let size ← PM.of rdBe32
    let c ← PM.of rdBe32
    let cl ← PM.of (rdTgtComp c)
    let param ← rdBufM
    rdV3M { d with tgtSize := size, tgtComp := cl.1, tgtCompLevel := cl.2, tgtCompParam := param }
  else pure d

/-- src/drpm_read.c:136-154. -/
def rdSequenceM (t : DType) : PM Bytes := do
  let n ← PM.of rdBe32
  if n < 16 ∨ (n ≠ 16 ∧ t = .rpmonly) then PM.of (P.fail .format) else rdBlockM n

/-- src/drpm_read.c:220-234. -/
def rdLeadsigM : PM Bytes := do
  let n ← PM.of rdBe32
  if n < 112 then PM.of (P.fail .format) else rdBlockM n

/-- src/drpm_read.c:287-303. -/
def rdAddM (t : DType) (keep : Bytes) : PM Bytes := do
  let n ← PM.of rdBe32
  if n > 0 then
    if t = .rpmonly then PM.of (P.fail .format) else rdBlockM n
  else pure keep

/-- src/drpm_read.c:101-158. -/
def rdPart1M (d : Delta) : PM Delta := do
  let v ← PM.of (rdVersion d.type)
  let nevr ← rdNevrM
  let seq ← rdSequenceM d.type
  let md5 ← PM.of (rdInto 16 16)
  pure { d with version := v, srcNevr := nevr, sequence := seq, tgtMd5 := md5 }

/-- src/drpm_read.c:212-273. -/
def rdPart3M (d : Delta) : PM Delta := do
  PM.of (rdHeaderGuard d)
  let ls ← rdLeadsigM
  let pf ← PM.of rdBe32
  let ic ← PM.of rdBe32
  let ec ← PM.of rdBe32
  let is ← rdPairsM ic id id
  let es ← rdPairsM ec smDecode id
  pure { d with tgtLeadsig := ls, payloadFmtOff := pf, intCount := ic, extCount := ec,
                ints := is, exts := es }

/-- src/drpm_read.c:275-330. -/
def rdPart4M (d : Delta) : PM Delta := do
  let el ← PM.of (rdLen d.version)
  let ad ← rdAddM d.type d.addData
  let il ← PM.of (rdLen d.version)
  let ib ← rdBlockM il
  pure { d with extDataLen := el, addData := ad, intDataLen := il, intPtrs := none, intBytes := ib }

/-- src/drpm_read.c:101-361 `readdelta_rest` after the stream was opened. -/
def rdRestM (d : Delta) : PM Delta := do
  let d ← rdPart1M d
  let d ← rdV2M d
  let d ← rdPart3M d
  let d ← rdPart4M d
  PM.of (rdChecks d)

/-- src/drpm_read.c:377-391: the target NEVR of an rpm-only delta. -/
def fileNevrM : PM Bytes := do
  let n ← PM.of fileBe32
  PM.ask ((n + 1) % 2^32)
  PM.of (fileNevr n)

/-- src/drpm_read.c:395-405: the add data of an rpm-only delta; the request is made even for 0. -/
def fileAddM : PM Bytes := do
  let n ← PM.of fileBe32
  PM.ask n
  PM.of (sysRead n n)

/-- src/drpm_read.c:364-408 `readdelta_rpmonly`. -/
def rdRpmonlyHeadM (d : Delta) : PM Delta := do
  PM.of fileVersion
  let nevr ← fileNevrM
  let add ← fileAddM
  pure { d with tgtNevr := nevr, addData := add }

/-- The rest of a delta whose head has been read: src/drpm_read.c:98-99 and `rdRestM`. -/
def openRestM (dec : Decoder) (d : Delta) (z : Bytes) : List Nat × Out Delta :=
  match openStream dec z with
  | .ok (c, s) =>
    ((rdRestM { d with comp := c.code } s).1, (rdRestM { d with comp := c.code } s).2 >>= fun r => .ok r.1)
  | .err e => ([], .err e)
  | .ub => ([], .ub)
  | .loop => ([], .loop)

/-- src/drpm_read.c:433-481 `read_deltarpm` on the contents of the file: the requests and the
    result. -/
def readDeltaM (dec : Decoder) (rpmHead : Bytes → Out (Nat × Nat)) (file : Bytes) :
    List Nat × Out Delta :=
  match fileBe32 file with
  | .ok (magic, rest) =>
    if magic = 0x6472706D then
      match rdRpmonlyHeadM { Delta.zero with type := .rpmonly } rest with
      | (l, .ok (d, rest)) => (l ++ (openRestM dec d rest).1, (openRestM dec d rest).2)
      | (l, .err e) => (l, .err e)
      | (l, .ub) => (l, .ub)
      | (l, .loop) => (l, .loop)
    else if magic = 0xEDABEEDB then
      match rpmHead file with
      | .ok (size, comp) =>
        openRestM dec { Delta.zero with type := .standard, tgtComp := comp } (file.drop size)
      | .err e => ([], .err e)
      | .ub => ([], .ub)
      | .loop => ([], .loop)
    else ([], .err .format)
  | .err e => ([], .err e)
  | .ub => ([], .ub)
  | .loop => ([], .loop)

/-! ## The result is that of the plain readers -/

theorem PM.of_snd {α : Type} (p : P α) (s : Bytes) : (PM.of p s).2 = p s := rfl

/-- The same reader, apart from the requests. -/
def Alike {α : Type} (p : PM α) (q : P α) : Prop := ∀ s, (p s).2 = q s

theorem Alike.of {α : Type} (p : P α) : Alike (PM.of p) p := fun _ => rfl
theorem Alike.pure {α : Type} (a : α) : Alike (pure a) (Pure.pure a) := fun _ => rfl
theorem Alike.bind {α β : Type} {p : PM α} {q : P α} {f : α → PM β} {g : α → P β}
    (h : Alike p q) (h2 : ∀ a, Alike (f a) (g a)) : Alike (p >>= f) (q >>= g) := by
  intro s
  show (PM.bind p f s).2 = P.bind q g s
  unfold PM.bind P.bind
  rw [← h s]
  cases (p s).2 with
  | ok r => exact h2 r.1 r.2
  | err e => rfl
  | ub => rfl
  | loop => rfl
theorem Alike.ite {α : Type} {c : Prop} [Decidable c] {p p' : PM α} {q q' : P α}
    (h : Alike p q) (h' : Alike p' q') : Alike (if c then p else p') (if c then q else q') := by
  split
  · exact h
  · exact h'
/-- Asking for memory changes nothing for the reader. -/
theorem Alike.ask {β : Type} {n : Nat} {f : Unit → PM β} {g : P β} (h : Alike (f ()) g) :
    Alike (PM.ask n >>= f) g := fun s => h s
theorem Alike.askIf {β : Type} {c : Prop} [Decidable c] {n : Nat} {f : Unit → PM β} {g : P β}
    (h : Alike (f ()) g) : Alike ((if c then PM.ask n else Pure.pure ()) >>= f) g := by
  split
  · exact fun s => h s
  · exact fun s => h s

theorem rdBlockM_same (n : Nat) : Alike (rdBlockM n) (rdInto n n) := by
  unfold rdBlockM
  split
  · exact Alike.ask (Alike.of _)
  · exact fun s => rfl

end Drpm
