import Verif.Basic
/-!
# Block search: src/drpm_search.c, the hash part (lines 60-366)

The suffix-sort part of that file (lines 370-681) is not called by the library; it is not
modelled.
-/

namespace Drpm

abbrev Word := BitVec 32

/-- src/drpm_search.c:84-138 `noise`. -/
def noiseTable : List Word := [
  0x9BE502A4, 0xBA7180EA, 0x324E474F, 0x0AAB8451, 0x0CED3810, 0x2158A968,
  0x6BBD3771, 0x75A02529, 0x41F05C14, 0xC2264B87, 0x1F67B359, 0xCD2D031D,
  0x49DC0C04, 0xA04AE45C, 0x6ADE28A7, 0x2D0254FF, 0xDEC60C7C, 0xDEF5C084,
  0x0F77FFC8, 0x112021F6, 0x5F6D581E, 0xE35EA3DF, 0x3216BFB4, 0xD5A3083D,
  0x7E63E9CD, 0xAA9208F6, 0xDA3F3978, 0xFE0E2547, 0x09DFB020, 0xD97472C5,
  0xBBCE2EDE, 0x121AEBD2, 0x0E9FDBEB, 0x7B6F5D9C, 0x84938E43, 0x30694F2D,
  0x86B7A7F8, 0xEFAF5876, 0x263812E6, 0xB6E48DDF, 0xCE8ED980, 0x4DF591E1,
  0x75257B35, 0x2F88DCFF, 0xA461FE44, 0xCA613B4D, 0xD9803F73, 0xEA056205,
  0xCCCA7A89, 0x0F2DBB07, 0xC53E359E, 0xE80D0137, 0x2B2D2A5D, 0xCFC1391A,
  0x2BB3B6C5, 0xB66AEA3C, 0x00EA419E, 0xCE5ADA84, 0xAE1D6712, 0x12F576BA,
  0x117FCBC4, 0xA9D4C775, 0x25B3D616, 0xEFDA65A8, 0xAFF3EF5B, 0x00627E68,
  0x668D1E99, 0x088D0EEF, 0xF8FAC24D, 0xE77457C7, 0x68D3BEB4, 0x921D2ACB,
  0x9410EAC9, 0xD7F24399, 0xCBDEC497, 0x98C99AE1, 0x65802B2C, 0x81E1C3C4,
  0xA130BB09, 0x17A87BAD, 0xA70367D6, 0x148658D4, 0x02F33377, 0x8620D8B6,
  0xBDAC25BD, 0xB0A6DE51, 0xD64C4571, 0xA4185BA0, 0xA342D70F, 0x3F1DC4C1,
  0x042DC3CE, 0x0DE89F43, 0xA69B1867, 0x3C064E11, 0xAD1E2C3E, 0x9660E8CD,
  0xD36B09CA, 0x4888F228, 0x61A9AC3C, 0xD9561118, 0x3532797E, 0x71A35C22,
  0xECC1376C, 0xAB31E656, 0x88BD0D35, 0x423B20DD, 0x38E4651C, 0x3C6397A4,
  0x4A7B12D9, 0x08B1CF33, 0xD0604137, 0xB035FDB8, 0x4916DA23, 0xA9349493,
  0xD83DAA9B, 0x145F7D95, 0x868531D6, 0xACB18F17, 0x9CD33B6F, 0x193E42B9,
  0x26DFDC42, 0x5069D8FA, 0x5BEE24EE, 0x5475D4C6, 0x315B2C0C, 0xF764EF45,
  0x01B6F4EB, 0x60BA3225, 0x8A16777C, 0x4C05CD28, 0x53E8C1D2, 0xC8A76CE5,
  0x8045C1E6, 0x61328752, 0x2EBAD322, 0x3444F3E2, 0x91B8AF11, 0xB0CEE675,
  0x55DBFF5A, 0xF7061EE0, 0x27D7D639, 0xA4AEF8C9, 0x42FF0E4F, 0x62755468,
  0x1C6CA3F3, 0xE4F522D1, 0x2765FCB3, 0xE20C8A95, 0x3A69AEA7, 0x56AB2C4F,
  0x8551E688, 0xE0BC14C2, 0x278676BF, 0x893B6102, 0xB4F0AB3B, 0xB55DDDA9,
  0xA04C521F, 0xC980088E, 0x912AEAC1, 0x08519BAD, 0x991302D3, 0x5B91A25B,
  0x696D9854, 0x9AD8B4BF, 0x41CB7E21, 0xA65D1E03, 0x85791D29, 0x89478AA7,
  0x4581E337, 0x59BAE0B1, 0xE0FC9DF3, 0x45D9002C, 0x7837464F, 0xDA22DE3A,
  0x1DC544BD, 0x601D8BAD, 0x668B0ABC, 0x7A5EBFB1, 0x3AC0B624, 0x5EE16D7D,
  0x9BFAC387, 0xBE8EF20C, 0x8D2AE384, 0x819DC7D5, 0x7C4951E7, 0xE60DA716,
  0x0C5B0073, 0xB43B3D97, 0xCE9974ED, 0x0F691DA9, 0x4B616D60, 0x8FA9E819,
  0x3F390333, 0x6F62FAD6, 0x5A32B67C, 0x3BE6F1C3, 0x05851103, 0xFF28828D,
  0xAA43A56A, 0x075D7DD5, 0x248C4B7E, 0x52FDE3EB, 0xF72E2EDA, 0x5DA6F75F,
  0x2F5148D9, 0xCAE2AEAE, 0xFDA6F3E5, 0xFF60D8FF, 0x2ADC02D2, 0x1DBDBD4C,
  0xD410AD7C, 0x8C284AAE, 0x392EF8E0, 0x37D48B3A, 0x6792FE9D, 0xAD32DDFA,
  0x1545F24E, 0x3A260F73, 0xB724CA36, 0xC510D751, 0x4F8DF992, 0x000B8B37,
  0x292E9B3D, 0xA32F250F, 0x8263D144, 0xFCAE0516, 0x1EAE2183, 0xD4AF2027,
  0xC64AFAE3, 0xE7B34FE4, 0xDF864AEA, 0x80CC71C5, 0x0E814DF3, 0x66CC5F41,
  0x853A497A, 0xA2886213, 0x5E34A2EA, 0x0F53BA47, 0x718C484A, 0xFA0F0B12,
  0x33CC59FF, 0x72B48E07, 0x8B6F57BC, 0x29CF886D, 0x1950955B, 0xCD52910C,
  0x4CECEF65, 0x05C2CBFE, 0x49DF4F6A, 0x1F4C3F34, 0xFADC1A09, 0xF2D65A24,
  0x117F5594, 0xDE3A84E6, 0x48DB3024, 0xD10CA9B5]

/-- `noise[b]`; the table has 256 entries (`noiseTable_length`), so the default is never used. -/
def noise (b : UInt8) : Word := noiseTable.getD b.toNat 0

/-- `HSIZE`, src/drpm_search.c:75-76. -/
def hsize : Nat := 16

/-- src/drpm_search.c:148: `(x << 1) ^ (x & (1u << 31) ? 1 : 0)`. -/
def rot1 (x : Word) : Word := (x <<< 1) ^^^ (if x &&& (1#32 <<< 31) ≠ 0 then 1 else 0)

/-- src/drpm_search.c:143-151 `buzhash` of the bytes given (the C function reads `HSIZE` bytes). -/
def buzhash (w : Bytes) : Word := w.foldl (fun x b => rot1 x ^^^ noise b) 0x83D31DF4

/-- src/drpm_search.c:260-267, sliding the window by one byte: `out` leaves, `inn` enters. -/
def rollHash (prekey : Word) (out inn : UInt8) : Word :=
  let prekey := rot1 prekey ^^^ noise inn
  let xprekey := noise out ^^^ (0x83D31DF4 ^^^ 0x07A63BE9)
  prekey ^^^ ((xprekey <<< 16) ^^^ (xprekey >>> 16))

/-- src/drpm_search.c:60-71 `match_len` on two memory areas given as (array, start, length). -/
def matchLen (old : Bytes) (o olen : Nat) (new : Bytes) (n nlen : Nat) : Out Nat :=
  go (min olen nlen) 0
where
  go : Nat → Nat → Out Nat
  | 0, i => .ok i
  | k + 1, i => do
    let a ← rd old (o + i)
    let b ← rd new (n + i)
    if a ≠ b then .ok i else go k (i + 1)

/-- `struct hash`. The table is a total function; accesses go through `Hash.get`, which is
    undefined outside `htLen`. -/
structure Hash where
  table : Nat → Nat
  htLen : Nat

def Hash.get (h : Hash) (key : Nat) : Out Nat := if key < h.htLen then .ok (h.table key) else .ub
def Hash.set (h : Hash) (key v : Nat) : Out Hash :=
  if key < h.htLen then .ok { h with table := fun k => if k = key then v else h.table k } else .ub

/-- src/drpm_search.c:159-165 `primes`, without the last element. -/
def hashPrimes : List Nat :=
  [65537, 98317, 147481, 221227, 331841, 497771, 746659, 1120001, 1680013, 2520031, 3780053,
   5670089, 8505137, 12757739, 19136609, 28704913, 43057369, 64586087, 96879131, 145318741,
   217978121, 326967209, 490450837, 735676303, 1103514463, 1655271719]

/-- src/drpm_search.c:172-177: the first prime larger than four times the number of blocks, else
    0xFFFFFFFF. -/
def hashTableLen (oldLen : Nat) : Nat :=
  let want := 4 * ((oldLen + hsize - 1) >>> 4)
  (hashPrimes.find? (fun p => want < p)).getD 0xFFFFFFFF

/-- The slot after `key`, src/drpm_search.c:187,191 and 274. -/
def Hash.next (h : Hash) (key : Nat) : Nat := if key = h.htLen - 1 then 0 else key + 1

/-- src/drpm_search.c:185-193, inserting the block at `off`. -/
def hashInsert (old : Bytes) (h : Hash) (off : Nat) : Out Hash := do
  let blk ← rdBlk old off hsize
  let key := (buzhash blk).toNat % h.htLen
  let e ← h.get key
  if e ≠ 0 then
    let e2 ← h.get (h.next key)
    if e2 ≠ 0 then .ok h
    else
      let other ← rdBlk old e hsize
      if blk = other then .ok h
      else h.set (h.next key) (off + 1)
  else h.set key (off + 1)

/-- src/drpm_search.c:184-194: all complete blocks, in order. -/
def hashFill (old : Bytes) : Nat → Nat → Hash → Out Hash
  | 0, _, h => .ok h
  | n + 1, off, h => do
    let h ← hashInsert old h off
    hashFill old n (off + hsize) h

/-- src/drpm_search.c:153-200 `hash_create`; memory exhaustion is not modelled. -/
def hashCreate (old : Bytes) : Out Hash :=
  hashFill old (old.length / hsize) 0 ⟨fun _ => 0, hashTableLen old.length⟩

/-- `new_len - HSIZE` in `size_t` arithmetic. -/
def lenMinusH (n : Nat) : Nat := (n + 2^64 - hsize) % 2^64

/-- The local variables of `hash_search` that live across iterations,
    src/drpm_search.c:216-238. -/
structure SearchSt where
  scan : Nat
  scanStart : Nat
  prekey : Word
  lastScan : Nat
  lastPos : Nat
  lastLen : Nat
  score : Nat
  scoreNum : Nat
  scoreStart : Nat
deriving DecidableEq, Repr

/-- src/drpm_search.c:254-278: the candidate position for the window at `scan`, if its block is
    in the table (first slot, then the following slot). -/
def candidate (h : Hash) (old new : Bytes) (scan : Nat) (prekey : Word) : Out (Option Nat) := do
  let key := prekey.toNat % h.htLen
  let pos ← h.get key
  if pos = 0 then .ok none
  else do
    let a ← rdBlk old (pos - 1) hsize
    let b ← rdBlk new scan hsize
    if a = b then .ok (some (pos - 1))
    else do
      let pos ← h.get (if key + 1 = h.htLen then 0 else key + 1)
      if pos = 0 then .ok none
      else do
        let a ← rdBlk old (pos - 1) hsize
        if a = b then .ok (some (pos - 1)) else .ok none

/-- src/drpm_search.c:281-287: table entry for the window three blocks further on (0 = none). -/
def farEntry (h : Hash) (old new : Bytes) (scan : Nat) : Out Nat := do
  let w ← rdBlk new (scan + 3 * hsize) hsize
  let key2 := (buzhash w).toNat % h.htLen
  let pos2 ← h.get key2
  if pos2 ≠ 0 then do
    let b ← rdBlk old (pos2 - 1) hsize
    if w ≠ b then h.get (h.next key2) else .ok pos2
  else .ok pos2

/-- src/drpm_search.c:279-299: length of the candidate match, possibly replaced by the longer
    match implied by the far block. -/
def bestMatch (h : Hash) (old new : Bytes) (scan pos : Nat) : Out (Nat × Nat) := do
  let l ← matchLen old (pos + hsize) (old.length - pos - hsize)
                   new (scan + hsize) (new.length - scan - hsize)
  let len := l + hsize
  if scan + hsize * 4 ≤ new.length then do
    let pos2 ← farEntry h old new scan
    if pos2 > 1 + 3 * hsize then
      let pos2 := pos2 - (1 + 3 * hsize)
      if pos2 ≠ pos then do
        let len2 ← matchLen old pos2 (old.length - pos2) new scan (new.length - scan)
        if len2 > len then .ok (pos2, len2) else .ok (pos, len)
      else .ok (pos, len)
    else .ok (pos, len)
  else .ok (pos, len)

/-- src/drpm_search.c:300-304: remember the longest match seen. -/
def remember (s : SearchSt) (pos len : Nat) : SearchSt :=
  if len > s.lastLen then { s with lastLen := len, lastPos := pos, lastScan := s.scan } else s

/-- src/drpm_search.c:319-323: extending the match backwards, at most to `scan_start`. -/
def backExt (old new : Bytes) : Nat → Nat → Nat → Nat → Out (Nat × Nat × Nat)
  | 0, scan, pos, len => .ok (scan, pos, len)
  | i + 1, scan, pos, len =>
    if pos > 0 ∧ scan > 0 then do
      let a ← rd old (pos - 1)
      let b ← rd new (scan - 1)
      if a = b then backExt old new i (scan - 1) (pos - 1) (len + 1) else .ok (scan, pos, len)
    else .ok (scan, pos, len)

/-- src/drpm_search.c:327/331/338: does the old alignment predict `new[m]`? Evaluates
    `(m + last_offset < old_len) && old[m + last_offset] == new[m]` in `size_t` arithmetic. -/
def predicted (old new : Bytes) (lastOff m : Nat) : Out Bool :=
  if (m + lastOff) % 2^64 < old.length then do
    let a ← rd old ((m + lastOff) % 2^64)
    let b ← rd new m
    .ok (a = b)
  else .ok false

/-- src/drpm_search.c:326-328 and 336-341: adding up predicted bytes from `m` on, `n` of them. -/
def scoreLoop (old new : Bytes) (lastOff : Nat) : Nat → Nat → Nat → Out Nat
  | 0, _, sc => .ok sc
  | n + 1, m, sc => do
    let p ← predicted old new lastOff m
    scoreLoop old new lastOff n (m + 1) (if p then (sc + 1) % 2^64 else sc)

/-- src/drpm_search.c:324-342: recompute or slide the score of the old alignment; returns
    (score, number of bytes scored, start). -/
def rescore (old new : Bytes) (lastOff : Nat) (s : SearchSt) (scan len : Nat) :
    Out (Nat × Nat × Nat) :=
  if s.scoreStart + 1 ≠ scan ∨ s.scoreNum = 0 ∨ s.scoreNum - 1 > len then do
    let sc ← scoreLoop old new lastOff len scan 0
    .ok (sc, len, scan)
  else do
    let p ← predicted old new lastOff s.scoreStart
    let sc := if p then (s.score + 2^64 - 1) % 2^64 else s.score
    let start := s.scoreStart + 1
    let num := s.scoreNum - 1
    let sc ← scoreLoop old new lastOff (len - num) (start + num) sc
    .ok (sc, len, start)

/-- One iteration either continues with a new state or leaves the loop with
    `(scan, pos, len)`. -/
inductive SearchRes where
  | cont (s : SearchSt)
  | done (scan pos len : Nat)

/-- src/drpm_search.c:313-314 and 350-351: restart the rolling hash. -/
def rehash (new : Bytes) (scan : Nat) (prekey : Word) : Out Word :=
  if scan + hsize < new.length then do
    let w ← rdBlk new scan hsize
    .ok (buzhash w)
  else .ok prekey

/-- src/drpm_search.c:347-349: where to go on after a match that the old alignment already
    predicts well. -/
def nextScan (scan len lastScan : Nat) : Nat :=
  let scan := if len > 3 * hsize + 32 then scan + (len - (3 * hsize + 32)) else scan
  if scan ≤ lastScan then lastScan + 1 else scan

/-- src/drpm_search.c:307-353 (`gotit`). -/
def gotIt (old new : Bytes) (lastOff : Nat) (s : SearchSt) : Out SearchRes :=
  if (s.lastScan + lastOff) % 2^64 = s.lastPos then do
    let scan := s.lastScan + s.lastLen
    let pk ← rehash new scan s.prekey
    .ok (.cont { s with scan := scan, scanStart := scan, prekey := pk, lastLen := 0 })
  else do
    let (scan, pos, len) ← backExt old new (s.lastScan - s.scanStart) s.lastScan s.lastPos s.lastLen
    let (sc, num, start) ← rescore old new lastOff s scan len
    if (len + 2^64 - sc) % 2^64 ≥ 32 then .ok (.done scan pos len)
    else do
      let scan := nextScan scan len s.lastScan
      let pk ← rehash new scan s.prekey
      .ok (.cont { s with scan := scan, scanStart := scan, prekey := pk, lastLen := 0,
                          score := sc, scoreNum := num, scoreStart := start })

/-- src/drpm_search.c:258-269 (`scannext`). -/
def scanNext (old new : Bytes) (lastOff : Nat) (s : SearchSt) : Out SearchRes :=
  if s.lastLen ≥ 32 ∧ s.scan - s.lastScan ≥ hsize then gotIt old new lastOff s
  else do
    let inn ← rd new (s.scan + hsize)
    let out ← rd new s.scan
    .ok (.cont { s with prekey := rollHash s.prekey out inn, scan := s.scan + 1 })

/-- src/drpm_search.c:247-353, one iteration of the loop. -/
def searchStep (h : Hash) (old new : Bytes) (lastOff : Nat) (s : SearchSt) : Out SearchRes :=
  if s.scan ≥ lenMinusH new.length then
    if s.lastLen ≥ 32 then gotIt old new lastOff s else .ok (.done s.scan 0 0)
  else do
    match ← candidate h old new s.scan s.prekey with
    | none => scanNext old new lastOff s
    | some pos => do
      let (pos, len) ← bestMatch h old new s.scan pos
      scanNext old new lastOff (remember s pos len)

def searchLoop (h : Hash) (old new : Bytes) (lastOff : Nat) :
    Nat → SearchSt → Out (Nat × Nat × Nat)
  | 0, _ => .loop
  | fuel + 1, s => do
    match ← searchStep h old new lastOff s with
    | .done scan pos len => .ok (scan, pos, len)
    | .cont s => searchLoop h old new lastOff fuel s

/-- Iterations that suffice (theorem `C03`): quadratic in the length of the new payload. -/
def searchFuel (newLen : Nat) : Nat := (newLen + 2) * (newLen + 3)

/-- src/drpm_search.c:232 and 239: the hash of the first window. -/
def startHash (new : Bytes) (scan : Nat) : Out Word :=
  if scan ≤ lenMinusH new.length then do
    let w ← rdBlk new scan hsize
    .ok (buzhash w)
  else .ok 0

/-- src/drpm_search.c:208-366 `hash_search`: returns (new position, old position, length). At the
    `break` of line 250 the C code leaves `pos` and `len` at stale values, but then always takes
    the branch of line 356 that sets them to 0. -/
def hashSearch (h : Hash) (old new : Bytes) (lastOff scan : Nat) : Out (Nat × Nat × Nat) := do
  let pk ← startHash new scan
  let (scan, pos, len) ← searchLoop h old new lastOff (searchFuel new.length)
    ⟨scan, scan, pk, 0, 0, 0, 0, 0, 0⟩
  if scan ≥ lenMinusH new.length then .ok (new.length, 0, 0) else .ok (scan, pos, len)

end Drpm
