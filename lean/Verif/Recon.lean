import Verif.Basic
import Verif.Utils
/-!
# The reconstruction loop of `drpm_apply`, src/drpm.c:671-727

External data comes from a block provider (`blocks_next`); here it is a parameter, so the loop can
be run against the real block cache or against a plain byte string.
-/

namespace Drpm

/-- `BLOCK_SIZE`, src/drpm_block.c:45. -/
def blockSize : Nat := 8192

/-- src/drpm_block.c:133-136 `block_id`. -/
def blockId (off : Nat) : Nat := off / blockSize

/-- A block provider: state, offset, length wanted, number of external copies completed, block
    number; yields the bytes delivered and the new state. Models the interface of `blocks_next`
    (src/drpm_block.c:285). -/
abbrev BlockProvider (σ : Type) := σ → Nat → Nat → Nat → Nat → Out (Bytes × σ)

/-- The variables of the loop: provider state, `ext_offset`, `ext_copies_done`, the add-block bytes
    not yet read (decompressed), and the calls made to `compstrm_wrapper_write`. -/
structure ReconSt (σ : Type) where
  blk : σ
  extOff : Nat
  done : Nat
  add : Bytes
  out : List Bytes

/-- `ext_offset += (int32_t)v` on a `uint64_t`, src/drpm.c:689. -/
def addS32 (off v : Nat) : Nat := u64OfInt ((off : Int) + s32 v)

/-- src/drpm.c:704-711: reading the add block for the chunk and adding it bytewise. Running out of
    add-block data is `DRPM_ERR_FORMAT` (src/drpm_decompstrm.c:388-408). -/
def applyAdd (useAdd : Bool) (chunk add : Bytes) : Out (Bytes × Bytes) :=
  if useAdd then
    if chunk.length ≤ add.length then
      .ok (List.zipWith (fun b a => b + a) chunk (add.take chunk.length), add.drop chunk.length)
    else .err .format
  else .ok (chunk, add)

/-- src/drpm.c:695-720: one external copy, block by block. -/
def extCopyLoop {σ : Type} (next : BlockProvider σ) (useAdd : Bool) :
    Nat → Nat → Nat → ReconSt σ → Out (ReconSt σ)
  | 0, _, _, _ => .loop
  | fuel + 1, len, blkId, s =>
    if len > 0 then do
      let (chunk, blk) ← next s.blk s.extOff len s.done blkId
      let (chunk', add) ← applyAdd useAdd chunk s.add
      extCopyLoop next useAdd fuel ((len + 2^64 - chunk.length) % 2^64) (blkId + 1)
        { s with blk := blk, add := add, out := s.out ++ [chunk'],
                 extOff := (s.extOff + chunk.length) % 2^64 }
    else .ok s

/-- src/drpm.c:688-722: the external copies before an internal copy. -/
def extCopies {σ : Type} (next : BlockProvider σ) (useAdd : Bool) :
    List (Nat × Nat) → ReconSt σ → Out (ReconSt σ)
  | [], s => .ok s
  | (w, len) :: rest, s => do
    let off := addS32 s.extOff w
    let s ← extCopyLoop next useAdd (len + 1) len (blockId off) { s with extOff := off }
    extCopies next useAdd rest { s with done := s.done + 1 }

/-- src/drpm.c:681-727: all copies. `ext` are the external copies not yet used, `intData` the
    internal data not yet used. -/
def reconLoop {σ : Type} (next : BlockProvider σ) (useAdd : Bool) :
    List (Nat × Nat) → List (Nat × Nat) → Bytes → ReconSt σ → Out (ReconSt σ)
  | [], _, _, s => .ok s
  | (todo, len) :: ints, ext, intData, s =>
    if todo > ext.length then .err .format
    else do
      let s ← extCopies next useAdd (ext.take todo) s
      let d ← rdBlk intData 0 len
      reconLoop next useAdd ints (ext.drop todo) (intData.drop len) { s with out := s.out ++ [d] }

/-- The simplest block provider: the external data as one byte string, delivered up to the end of
    the block (the specification of `blocks_next`). -/
def flatNext (old : Bytes) : BlockProvider Unit := fun _ off len _ id =>
  let n := min (blockSize * (id + 1) - off) len
  if blockId off = id ∧ off + n ≤ old.length then .ok (slice old off n, ()) else .ub

/-- Running the whole loop; the result is the sequence of writes. -/
def reconWrites {σ : Type} (next : BlockProvider σ) (blk0 : σ) (useAdd : Bool)
    (ext int : List (Nat × Nat)) (intData add : Bytes) : Out (List Bytes) := do
  let s ← reconLoop next useAdd int ext intData ⟨blk0, 0, 0, add, []⟩
  .ok s.out

end Drpm
