import Verif.Api
import Verif.Props.Format
/-!
# Properties C19, C36, C37, C50, C54: reading deltas through the API, sequence IDs, NEVR strings
-/

namespace Drpm

/-! ## C50 -/

/-- C50. `drpm_strerror` describes every integer; the eleven codes of src/drpm.h have different
    descriptions, and all other integers the one for undefined values. -/
theorem C50_strerror :
    (∀ a b : Int, 0 ≤ a ∧ a ≤ 10 → 0 ≤ b ∧ b ≤ 10 → strerror a = strerror b → a = b) ∧
    (∀ e : Int, strerror e = "(undefined error value)" ↔ ¬ (0 ≤ e ∧ e ≤ 10)) := by
  have inj : ∀ a b : Fin 11, strerror a.val = strerror b.val → a = b := by decide +kernel
  have def' : ∀ a : Fin 11, strerror a.val ≠ "(undefined error value)" := by decide +kernel
  constructor
  · intro a b ha hb h
    have h' := inj ⟨a.toNat, by omega⟩ ⟨b.toNat, by omega⟩ (by
      simp only
      rw [show ((a.toNat : Nat) : Int) = a by omega, show ((b.toNat : Nat) : Int) = b by omega]
      exact h)
    simp only [Fin.mk.injEq] at h'
    omega
  · intro e
    constructor
    · intro h he
      refine def' ⟨e.toNat, by omega⟩ ?_
      simp only
      rw [show ((e.toNat : Nat) : Int) = e by omega]
      exact h
    · intro h
      unfold strerror
      repeat rw [if_neg (by omega)]

/-- Every error of the library has a description of its own, different from success. -/
theorem C50_errors (e f : Err) : (strerror e.code = strerror f.code → e = f) ∧ strerror e.code ≠ strerror 0 ∧
    strerror e.code ≠ "(undefined error value)" := by
  revert e f
  intro e f
  cases e <;> cases f <;> decide +kernel

/-! ## C36 -/

/-- What the numeric tags of src/drpm.h:121-139 mean for a delta `d` that was written. Version 1
    does not store size and compression of the target; the compression is then the one of the RPM
    head of the delta. -/
def numberTags (d : Delta) (headComp : Nat) : List (Int × Nat) :=
  [(1, d.version), (2, match d.type with | .standard => 0 | .rpmonly => 1), (3, d.comp),
   (7, if 2 ≤ d.version then d.tgtSize else 0), (9, if 2 ≤ d.version then d.tgtComp else headComp),
   (11, d.tgtHeaderLen), (14, d.payloadFmtOff), (17, d.extDataLen), (18, d.intDataLen)]

/-- The string tags; sequence, MD5, parameters, lead and signature in hexadecimal. -/
def stringTags (d : Delta) (filename tgtNevr : Bytes) : List (Int × Option Bytes) :=
  [(0, some filename), (4, some (dumpHex d.sequence)), (5, some d.srcNevr), (6, some tgtNevr), (8, some (dumpHex d.tgtMd5)),
   (10, if 2 ≤ d.version ∧ d.tgtCompParam ≠ [] then some (dumpHex d.tgtCompParam) else none),
   (13, some (dumpHex d.tgtLeadsig))]

/-- The array tags. -/
def arrayTags (d : Delta) : List (Int × List (Nat × Nat)) :=
  [(12, d.offadj), (15, d.ints), (16, d.exts)]

/-- The answer to a question: the value of the tag, or bad arguments and the variable untouched. -/
def answer {α : Type} (v : Option α) (ret : α) : Option Err × Option α :=
  match v with
  | some v => (none, some v)
  | none => (some .args, some ret)

/-- An array as the user gets it: NULL and 0 if it is empty. -/
def arrayAnswer (l : List (Nat × Nat)) : Option (List Nat) × Nat :=
  if l = [] then (none, 0) else (some ((l.map (fun p => [p.1, p.2])).flatten), 2 * l.length)

theorem flatPairs_eq (l : List (Nat × Nat)) : flatPairs l = (l.map (fun p => [p.1, p.2])).flatten := by
  induction l with
  | nil => rfl
  | cons p l ih => obtain ⟨a, b⟩ := p; simp [flatPairs, ih]

theorem flatPairs_length (l : List (Nat × Nat)) : (flatPairs l).length = 2 * l.length := by
  induction l with
  | nil => rfl
  | cons p l ih => obtain ⟨a, b⟩ := p; simp [flatPairs, ih]; omega

theorem copyElems_all (arr : List Nat) : ∀ n i, i + n = arr.length → copyElems arr n i = .ok (arr.drop i) := by
  intro n
  induction n with
  | zero => intro i h; rw [copyElems, List.drop_eq_nil_of_le (by omega)]
  | succ n ih =>
    intro i h
    have hi : i < arr.length := by omega
    rw [copyElems, rd, List.getElem?_eq_getElem hi]
    simp only [Out.bind_ok]
    rw [ih (i + 1) (by omega), Out.bind_ok, ← List.drop_eq_getElem_cons hi]

theorem copyArray_ok (l : List (Nat × Nat)) (h : l.length < 2^29) :
    copyArray l.length l = .ok (2 * l.length, flatPairs l) := by
  unfold copyArray
  simp only
  have e1 : l.length * 2 % 2^32 = 2 * l.length := by omega
  rw [e1]
  have e2 : 2 * l.length * 4 % 2^32 / 4 = 2 * l.length := by omega
  rw [e2]
  by_cases hl : l = []
  · subst hl; rfl
  · have : 0 < l.length := List.length_pos_iff.mpr hl
    rw [if_pos (by omega), if_pos (by rw [flatPairs_length]; omega), List.take_of_length_le (by rw [flatPairs_length]; omega)]

theorem copyArray_zero (l : List (Nat × Nat)) : copyArray 0 l = .ok (0, []) := rfl

theorem hexString_ok (s : Bytes) (h : s.length < 2^31) : hexString s = .ok (dumpHex s) := by
  unfold hexString hexRoom
  rw [if_pos (by rw [List.length_append, dumpHex_length]; simp only [List.length_singleton]; omega)]

/-- What `deltarpm_to_drpm` makes of a delta that was read. -/
theorem toDrpm_spec (filename nevr : Bytes) (rpmNevr : Out Bytes) (d : Delta)
    (ho : d.offadjCount = d.offadj.length ∧ d.offadj.length < 2^29)
    (hi : d.intCount = d.ints.length ∧ d.ints.length < 2^29) (he : d.extCount = d.exts.length ∧ d.exts.length < 2^29)
    (hs : d.sequence.length < 2^31) (hl : d.tgtLeadsig.length < 2^31) (hp : d.tgtCompParam.length < 2^31)
    (hn : tgtNevrOf rpmNevr d = .ok nevr) :
    toDrpm filename rpmNevr d = .ok { filename := filename, version := d.version, type := d.type.code, comp := d.comp, sequence := dumpHex d.sequence, srcNevr := d.srcNevr, tgtNevr := nevr, tgtSize := d.tgtSize, tgtMd5 := dumpHex d.tgtMd5, tgtComp := d.tgtComp, tgtCompParam := if d.tgtCompParam ≠ [] then some (dumpHex d.tgtCompParam) else none, tgtHeaderLen := d.tgtHeaderLen, offadjSize := 2 * d.offadj.length, offadj := flatPairs d.offadj, tgtLeadsig := dumpHex d.tgtLeadsig, payloadFmtOff := d.payloadFmtOff, intSize := 2 * d.ints.length, ints := flatPairs d.ints, extSize := 2 * d.exts.length, exts := flatPairs d.exts, extDataLen := d.extDataLen, intDataLen := d.intDataLen } := by
  unfold toDrpm
  rw [ho.1, copyArray_ok _ ho.2, Out.bind_ok]
  simp only
  rw [hi.1, copyArray_ok _ hi.2, Out.bind_ok]
  simp only
  rw [he.1, copyArray_ok _ he.2, Out.bind_ok]
  simp only
  rw [hexString_ok _ hs, Out.bind_ok, hexString_ok _ hl, Out.bind_ok]
  have : hexParam d.tgtCompParam = .ok (if d.tgtCompParam ≠ [] then some (dumpHex d.tgtCompParam) else none) := by
    unfold hexParam
    by_cases h : d.tgtCompParam = []
    · simp [h]
    · rw [if_pos (List.length_pos_iff.mpr h), hexString_ok _ hp, Out.bind_ok, if_pos h]
  rw [this, Out.bind_ok, hn, Out.bind_ok]

theorem lookup_ne {α : Type} {k a : Int} (b : α) (l : List (Int × α)) (h : ¬ k = a) : ((a, b) :: l).lookup k = l.lookup k := by
  have : (k == a) = false := by simp [h]
  show (match k == a with | true => some b | false => l.lookup k) = _
  rw [this]

/-- What a user gets from the accessors. -/
structure Answers (i : Info) (d : Delta) (headComp : Nat) (filename nevr : Bytes) : Prop where
  uint : ∀ tag r, getUint (some i) tag (some r) =
    answer (if tag ∈ [1, 2, 3, 7, 9] then (numberTags d headComp).lookup tag else none) r
  ulong : ∀ tag r, getUlong (some i) tag (some r) =
    answer (if tag ∈ [1, 2, 3, 7, 9, 11, 14] then (numberTags d headComp).lookup tag else none) r
  ullong : ∀ tag r, getUllong (some i) tag (some r) = answer ((numberTags d headComp).lookup tag) r
  string : ∀ tag r, getString (some i) tag true (some r) = answer ((stringTags d filename nevr).lookup tag) r
  array : ∀ tag r, getUlongArray (some i) tag true (some r) = .ok (answer (((arrayTags d).lookup tag).map arrayAnswer) r)

theorem arr_getter (l : List (Nat × Nat)) (r : Option (List Nat) × Nat) :
    (if 2 * l.length = 0 then Out.ok (none, some (none, 0))
      else do
        let elems ← copyElems (flatPairs l) (2 * l.length) 0
        Out.ok (none, some (some elems, 2 * l.length))) = .ok (answer (some (arrayAnswer l)) r) := by
  by_cases h : l = []
  · subst h; rfl
  · have : 0 < l.length := List.length_pos_iff.mpr h
    rw [if_neg (by omega), copyElems_all _ _ _ (by rw [flatPairs_length]; omega), Out.bind_ok]
    unfold answer arrayAnswer
    rw [if_neg h, ← flatPairs_eq]
    rfl

/-- C36. A delta that was written to a file and is read with `drpm_read`: for every integer tag each
    accessor gives exactly the value that was written, without loss, or reports bad arguments and
    leaves the result alone. -/
theorem C36_accessors (d : Delta) (ptrs : List Bytes) (hd : d.Made ptrs) (c : Comp)
    (hc : d.comp = c.code) (compress : Bytes → Out Bytes) (dec : Decoder)
    (hl : Lossless c compress dec) (rpmW : Bytes → Bytes) (rpmR : Bytes → Out (Nat × Nat)) (headComp : Nat)
    (hh : headComp < 2^16)
    (hrpm : ∀ z, rpmR (rpmW z ++ z) = .ok ((rpmW z).length, headComp) ∧
      ∃ t, rpmW z = [0xED, 0xAB, 0xEE, 0xDB] ++ t)
    (rpmNevr : Bytes → Out Bytes) (nevr : Bytes)
    (hnevr : match d.type with | .standard => ∀ z, rpmNevr (rpmW z ++ z) = .ok nevr | .rpmonly => d.tgtNevr = nevr)
    (hsmall : d.sequence.length < 2^31 ∧ d.tgtLeadsig.length < 2^31 ∧ d.tgtCompParam.length < 2^31) (filename : Bytes) :
    ∃ file i, writeDelta compress (fun z => .ok (rpmW z)) d = .ok file ∧ drpmRead dec rpmR rpmNevr filename file = .ok i ∧
      Answers i d headComp filename nevr := by
  obtain ⟨file, r, w1, w2, sd, e1, e2, e3⟩ := C07_roundtrip d ptrs hd c hc compress dec hl rpmW rpmR headComp hrpm
  have hver := hd.version
  have hoff : r.offadjCount = r.offadj.length ∧ r.offadj.length < 2^29 := by
    rw [sd.offadj.1]
    refine ⟨?_, hd.offadj.2.1⟩
    by_cases h : d.version = 3
    · rw [sd.offadj.2 h, hd.offadj.1]
    · rw [e3 (by omega), (hd.old (by omega)).2.1]; rfl
  have hint : r.intCount = r.ints.length ∧ r.ints.length < 2^29 := by
    rw [sd.ints.1, sd.ints.2]; exact ⟨hd.ints.1, hd.ints.2.1⟩
  have hext : r.extCount = r.exts.length ∧ r.exts.length < 2^29 := by
    rw [sd.exts.1, sd.exts.2]; exact ⟨hd.exts.1, hd.exts.2.1⟩
  have hparam : r.tgtCompParam = if 2 ≤ d.version then d.tgtCompParam else [] := by
    by_cases h : 2 ≤ d.version
    · rw [if_pos h, (sd.v2 h).2.2.2]
    · rw [if_neg h, (e2 (by omega)).2.2.1]
  have hsize : r.tgtSize = if 2 ≤ d.version then d.tgtSize else 0 := by
    by_cases h : 2 ≤ d.version
    · rw [if_pos h, (sd.v2 h).1]
    · rw [if_neg h, (e2 (by omega)).2.1]
  have htc : r.tgtComp = if 2 ≤ d.version then d.tgtComp else headComp := by
    by_cases h : 2 ≤ d.version
    · rw [if_pos h, (sd.v2 h).2.1]
    · rw [if_neg h, (e2 (by omega)).1]
  have hnv : tgtNevrOf (rpmNevr file) r = .ok nevr := by
    unfold tgtNevrOf
    rw [sd.type]
    cases ht : d.type with
    | standard =>
      rw [ht] at hnevr
      have := w1
      rw [writeDelta_total] at this
      unfold writeHead at this
      rw [ht, Out.bind_eq_ok] at this
      obtain ⟨s, _, this⟩ := this
      rw [Out.bind_eq_ok] at this
      obtain ⟨y, _, this⟩ := this
      cases this
      exact hnevr y
    | rpmonly => rw [ht] at hnevr; simp only at hnevr ⊢; rw [sd.tgtNevr ht, hnevr]
  have hto := toDrpm_spec filename nevr (rpmNevr file) r hoff hint hext (by rw [sd.sequence]; exact hsmall.1)
    (by rw [sd.leadsig]; exact hsmall.2.1)
    (by rw [hparam]; split; exact hsmall.2.2; simp) hnv
  rw [sd.version, sd.type, e1, sd.sequence, sd.srcNevr, hsize, sd.md5, htc, hparam, sd.header, sd.offadj.1, sd.leadsig,
    sd.fmt, sd.ints.1, sd.exts.1, sd.extLen, sd.intLen] at hto
  refine ⟨file, _, w1, by unfold drpmRead; rw [w2, Out.bind_ok, hto], ?_⟩
  have b1 : d.version < 2^32 := by omega
  have b2 : d.type.code < 2^32 := by cases d.type <;> decide
  have b3 : d.comp < 2^32 := by rw [hc]; cases c <;> decide
  have b4 : (if 2 ≤ d.version then d.tgtSize else 0) < 2^32 := by split; exact hd.size; omega
  have b5 : (if 2 ≤ d.version then d.tgtComp else headComp) < 2^32 := by
    split
    · have := hd.comp.1
      simp only [List.mem_cons, List.not_mem_nil, or_false] at this
      omega
    · omega
  have b6 := hd.header
  have b7 := hd.fmt
  have b8 := hd.ext.1
  have b9 := hd.data.2.2.2
  have ht : d.type.code = match d.type with | .standard => 0 | .rpmonly => 1 := by cases d.type <;> rfl
  generalize hs : (if 2 ≤ d.version then d.tgtSize else 0) = size at b4
  generalize hcm : (if 2 ≤ d.version then d.tgtComp else headComp) = comp at b5
  constructor
  · intro tag r
    unfold getUint numberTags
    rw [hs, hcm, ← ht]
    simp only
    rw [Nat.mod_eq_of_lt b1, Nat.mod_eq_of_lt b2, Nat.mod_eq_of_lt b3, Nat.mod_eq_of_lt b4, Nat.mod_eq_of_lt b5]
    by_cases t1 : tag = 1; · subst t1; rfl
    by_cases t2 : tag = 2; · subst t2; rfl
    by_cases t3 : tag = 3; · subst t3; rfl
    by_cases t4 : tag = 7; · subst t4; rfl
    by_cases t5 : tag = 9; · subst t5; rfl
    simp [t1, t2, t3, t4, t5, answer]
  · intro tag r
    unfold getUlong numberTags
    rw [hs, hcm, ← ht]
    simp only
    rw [Nat.mod_eq_of_lt (by omega), Nat.mod_eq_of_lt (by omega), Nat.mod_eq_of_lt (by omega), Nat.mod_eq_of_lt (by omega),
      Nat.mod_eq_of_lt (by omega), Nat.mod_eq_of_lt (by omega), Nat.mod_eq_of_lt (by omega)]
    by_cases t1 : tag = 1; · subst t1; rfl
    by_cases t2 : tag = 2; · subst t2; rfl
    by_cases t3 : tag = 3; · subst t3; rfl
    by_cases t4 : tag = 7; · subst t4; rfl
    by_cases t5 : tag = 9; · subst t5; rfl
    by_cases t6 : tag = 11; · subst t6; rfl
    by_cases t7 : tag = 14; · subst t7; rfl
    simp [t1, t2, t3, t4, t5, t6, t7, answer]
  · intro tag r
    unfold getUllong numberTags
    rw [hs, hcm, ← ht]
    simp only
    rw [Nat.mod_eq_of_lt (by omega), Nat.mod_eq_of_lt (by omega), Nat.mod_eq_of_lt (by omega), Nat.mod_eq_of_lt (by omega),
      Nat.mod_eq_of_lt (by omega), Nat.mod_eq_of_lt (by omega), Nat.mod_eq_of_lt (by omega), Nat.mod_eq_of_lt (by omega),
      Nat.mod_eq_of_lt (by omega)]
    by_cases t1 : tag = 1; · subst t1; rfl
    by_cases t2 : tag = 2; · subst t2; rfl
    by_cases t3 : tag = 3; · subst t3; rfl
    by_cases t4 : tag = 7; · subst t4; rfl
    by_cases t5 : tag = 9; · subst t5; rfl
    by_cases t6 : tag = 11; · subst t6; rfl
    by_cases t7 : tag = 14; · subst t7; rfl
    by_cases t8 : tag = 17; · subst t8; rfl
    by_cases t9 : tag = 18; · subst t9; rfl
    rw [lookup_ne _ _ t1, lookup_ne _ _ t2, lookup_ne _ _ t3, lookup_ne _ _ t4, lookup_ne _ _ t5, lookup_ne _ _ t6,
      lookup_ne _ _ t7, lookup_ne _ _ t8, lookup_ne _ _ t9]
    simp [t1, t2, t3, t4, t5, t6, t7, t8, t9, answer]
  · intro tag r
    unfold getString stringOf stringTags
    simp only
    by_cases t1 : tag = 0; · subst t1; rfl
    by_cases t2 : tag = 4; · subst t2; rfl
    by_cases t3 : tag = 5; · subst t3; rfl
    by_cases t4 : tag = 6; · subst t4; rfl
    by_cases t5 : tag = 8; · subst t5; rfl
    by_cases t6 : tag = 10
    · subst t6
      by_cases hv : 2 ≤ d.version
      · by_cases hp : d.tgtCompParam = []
        · simp [hv, hp, answer, List.lookup]
        · simp [hv, hp, answer, List.lookup]
      · simp [hv, answer, List.lookup]
    by_cases t7 : tag = 13; · subst t7; rfl
    rw [lookup_ne _ _ t1, lookup_ne _ _ t2, lookup_ne _ _ t3, lookup_ne _ _ t4, lookup_ne _ _ t5, lookup_ne _ _ t6,
      lookup_ne _ _ t7]
    simp [t1, t2, t3, t4, t5, t6, t7, answer]
  · intro tag r
    unfold getUlongArray arrayOf arrayTags
    simp only
    by_cases t1 : tag = 12; · subst t1; exact arr_getter _ r
    by_cases t2 : tag = 15; · subst t2; exact arr_getter _ r
    by_cases t3 : tag = 16; · subst t3; exact arr_getter _ r
    rw [lookup_ne _ _ t1, lookup_ne _ _ t2, lookup_ne _ _ t3]
    simp [t1, t2, t3, answer]

/-- NULL arguments are reported and nothing is touched. -/
theorem C36_null (i : Option Info) (tag : Int) :
    (∀ r, getUint none tag r = (some .args, r) ∧ getUlong none tag r = (some .args, r) ∧ getUllong none tag r = (some .args, r)) ∧
    (getUint i tag none = (some .args, none) ∧ getUlong i tag none = (some .args, none) ∧
      getUllong i tag none = (some .args, none)) ∧
    (∀ m r r', getString none tag m r = (some .args, r) ∧ getUlongArray none tag m r' = .ok (some .args, r')) := by
  refine ⟨fun r => ⟨rfl, rfl, rfl⟩, ?_, fun m r r' => ⟨rfl, rfl⟩⟩
  cases i <;> exact ⟨rfl, rfl, rfl⟩

/-- A delta that meets the conditions of `C36_accessors`. -/
def demoDelta : Delta :=
  { Delta.zero with
    type := .rpmonly, comp := 1, tgtNevr := [97], version := 3, srcNevr := [98, 99],
    sequence := List.replicate 16 7, tgtMd5 := List.replicate 16 9, tgtSize := 70000, tgtComp := 4, tgtCompLevel := 6,
    tgtCompParam := [1, 2], tgtHeaderLen := 5, tgtLeadsig := List.replicate 112 1, payloadFmtOff := 77, intCount := 1,
    extCount := 1, ints := [(1, 3)], exts := [(0, 4)], extDataLen := 10, addData := [], intDataLen := 3,
    intPtrs := some [[5, 6, 7]] }

example : demoDelta.Made [[5, 6, 7]] where
  version := by decide
  rpmonly := by intro _; decide
  srcNevr := by decide
  sequence := by decide
  md5 := by decide
  size := by decide
  comp := by decide
  param := by decide
  header := by decide
  offadj := ⟨rfl, by decide, (fun p hp => by cases hp), (fun p hp => by cases hp)⟩
  old := by decide
  leadsig := by decide
  fmt := by decide
  ints := ⟨rfl, by decide, by unfold Words; decide⟩
  exts := ⟨rfl, by decide, by unfold Words; decide, by decide⟩
  ext := ⟨by decide, ⟨0, by decide, by decide, trivial⟩, by decide, trivial⟩
  add := by decide
  data := ⟨rfl, rfl, rfl, by decide⟩

example : (numberTags demoDelta 0).lookup 14 = some 77 ∧ (numberTags demoDelta 0).lookup 4 = none ∧
    (stringTags demoDelta [102] [97]).lookup 10 = some (some [48, 49, 48, 50]) := by decide

/-! ## C54 -/

/-- C54. `drpm_read` never goes outside its buffers when it turns a delta that was read into the
    form for the user (the arrays are as the reader leaves them, see C10), provided sequence, lead
    with signature, and compression parameters are shorter than 2 GiB. -/
theorem C54_partial (filename : Bytes) (rpmNevr : Out Bytes) (d : Delta)
    (ho : d.offadjCount = d.offadj.length ∧ d.offadj.length < 2^29)
    (hi : d.intCount = d.ints.length ∧ d.ints.length < 2^29) (he : d.extCount = d.exts.length ∧ d.exts.length < 2^29)
    (hs : d.sequence.length < 2^31) (hl : d.tgtLeadsig.length < 2^31) (hp : d.tgtCompParam.length < 2^31)
    (hn : rpmNevr.Defined) : (toDrpm filename rpmNevr d).Defined := by
  unfold toDrpm
  rw [ho.1, copyArray_ok _ ho.2, Out.bind_ok]
  simp only
  rw [hi.1, copyArray_ok _ hi.2, Out.bind_ok]
  simp only
  rw [he.1, copyArray_ok _ he.2, Out.bind_ok]
  simp only
  rw [hexString_ok _ hs, Out.bind_ok, hexString_ok _ hl, Out.bind_ok]
  have hp' : hexParam d.tgtCompParam = .ok (if d.tgtCompParam ≠ [] then some (dumpHex d.tgtCompParam) else none) := by
    unfold hexParam
    by_cases h : d.tgtCompParam = []
    · simp [h]
    · rw [if_pos (List.length_pos_iff.mpr h), hexString_ok _ hp, Out.bind_ok, if_pos h]
  rw [hp', Out.bind_ok]
  refine Out.Defined.bind ?_ (fun _ _ => Out.defined_ok _)
  unfold tgtNevrOf
  split
  · exact hn
  · exact Out.defined_ok _

/-- The condition is needed: for a sequence of 2 GiB or more (the length field of the format has 32
    bits, and such a sequence may compress to a few kilobytes) the hexadecimal form is written past
    the end of a buffer that is 4 GiB too small. -/
theorem C54_violated (filename : Bytes) (rpmNevr : Out Bytes) (d : Delta)
    (ho : d.offadjCount = d.offadj.length ∧ d.offadj.length < 2^29)
    (hi : d.intCount = d.ints.length ∧ d.ints.length < 2^29) (he : d.extCount = d.exts.length ∧ d.exts.length < 2^29)
    (hs : 2^31 ≤ d.sequence.length) : toDrpm filename rpmNevr d = .ub := by
  unfold toDrpm
  rw [ho.1, copyArray_ok _ ho.2, Out.bind_ok]
  simp only
  rw [hi.1, copyArray_ok _ hi.2, Out.bind_ok]
  simp only
  rw [he.1, copyArray_ok _ he.2, Out.bind_ok]
  simp only
  unfold hexString hexRoom
  rw [if_neg (by rw [List.length_append, dumpHex_length]; simp only [List.length_singleton]; omega)]
  rfl

/-! ## C19 -/

theorem strrchr_none {c : UInt8} {s : Bytes} (h : c ∉ s) : strrchr c s = none := by
  induction s with
  | nil => rfl
  | cons x xs ih =>
    simp only [List.mem_cons, not_or] at h
    rw [strrchr, ih h.2]
    simp only
    rw [if_neg (fun e => h.1 e.symm)]

theorem strrchr_last (c : UInt8) (a b : Bytes) (h : c ∉ b) : strrchr c (a ++ c :: b) = some a.length := by
  induction a with
  | nil => rw [List.nil_append, strrchr, strrchr_none h]; simp
  | cons x xs ih => rw [List.cons_append, strrchr, ih]; simp

theorem dumpHex_no {c : UInt8} (hc : ¬ isLowerHex c) (s : Bytes) : c ∉ dumpHex s := fun h => hc (dumpHex_chars s c h)

/-- C19. What `drpm_make` writes to the sequence file is split into the same source NEVR and
    sequence, with and without the newline at the end, whatever dashes the NEVR contains. -/
theorem C19_roundtrip (nevr seq : Bytes) (hn : nevr ≠ []) (hs : 16 ≤ seq.length ∧ seq.length < 2^31) :
    ∃ line, seqLine nevr seq = .ok (line ++ [10]) ∧ splitSeqId (line ++ [10]) = .ok (nevr, seq) ∧
      splitSeqId line = .ok (nevr, seq) := by
  refine ⟨nevr ++ [45] ++ dumpHex seq, ?_, ?_⟩
  · unfold seqLine
    rw [hexString_ok _ hs.2, Out.bind_ok]
  have hpos : nevr.length ≠ 0 := fun h => hn (List.length_eq_zero_iff.mp h)
  have key : ∀ t : Bytes, t.length ≤ 1 → 45 ∉ t → splitSeqId (nevr ++ 45 :: (dumpHex seq ++ t)) = .ok (nevr, seq) := by
    intro t ht hd
    have hno : 45 ∉ dumpHex seq ++ t := by
      simp only [List.mem_append, not_or]
      exact ⟨dumpHex_no (by decide) seq, hd⟩
    unfold splitSeqId
    rw [strrchr_last 45 nevr _ hno]
    have hdrop : (nevr ++ 45 :: (dumpHex seq ++ t)).drop (nevr.length + 1) = dumpHex seq ++ t := by
      rw [← List.drop_drop, List.drop_left]; rfl
    have hlen : (dumpHex seq ++ t).length / 2 = seq.length := by
      rw [List.length_append, dumpHex_length]; omega
    cases hl : nevr.length with
    | zero => exact absurd hl hpos
    | succ n =>
      simp only
      rw [← hl, hdrop, hlen, if_neg (by omega), parseHex_dumpHex_append seq t ht]
      simp
  constructor
  · have := key [10] (by decide) (by decide)
    simpa using this
  · have := key [] (by decide) (by decide)
    simpa using this

/-- Only what can be split is accepted: an accepted ID is the NEVR, a dash, and at least 32
    hexadecimal digits for exactly the bytes of the sequence (and possibly one more character, such
    as the newline). -/
theorem C19_accepted (id nevr seq : Bytes) (h : splitSeqId id = .ok (nevr, seq)) :
    nevr ≠ [] ∧ 16 ≤ seq.length ∧ ∃ hex, id = nevr ++ [45] ++ hex ∧ parseHex hex = some seq ∧ 45 ∉ hex ∧
      seq.length = hex.length / 2 := by
  have spec : ∀ (s : Bytes) (p : Nat), strrchr 45 s = some p → ∃ a b, s = a ++ 45 :: b ∧ a.length = p ∧ 45 ∉ b := by
    intro s
    induction s with
    | nil => intro p hp; cases hp
    | cons x xs ih =>
      intro p hp
      rw [strrchr] at hp
      cases hx : strrchr 45 xs with
      | some i =>
        rw [hx] at hp
        cases hp
        obtain ⟨a, b, h1, h2, h3⟩ := ih i hx
        exact ⟨x :: a, b, by rw [h1]; rfl, by simp [h2], h3⟩
      | none =>
        rw [hx] at hp
        simp only at hp
        split at hp
        · rename_i he
          cases hp
          refine ⟨[], xs, by rw [he]; rfl, rfl, ?_⟩
          intro hm
          have : ∀ l : Bytes, 45 ∈ l → strrchr 45 l ≠ none := by
            intro l
            induction l with
            | nil => intro hm; cases hm
            | cons y ys ih2 =>
              intro hm
              rw [strrchr]
              cases hy : strrchr 45 ys with
              | some j => simp
              | none =>
                simp only [List.mem_cons] at hm
                rcases hm with hm | hm
                · simp [hm]
                · exact absurd hy (ih2 hm)
          exact this xs hm hx
        · cases hp
  unfold splitSeqId at h
  cases hp : strrchr 45 id with
  | none => rw [hp] at h; cases h
  | some p =>
    obtain ⟨a, b, h1, h2, h3⟩ := spec id p hp
    cases p with
    | zero => rw [hp] at h; cases h
    | succ p =>
      rw [hp] at h
      simp only at h
      have hdrop : id.drop (p + 1 + 1) = b := by
        rw [h1, ← h2, ← List.drop_drop, List.drop_left]; rfl
      have htake : id.take (p + 1) = a := by rw [h1, ← h2, List.take_left]
      rw [hdrop, htake] at h
      split at h
      · cases h
      · rename_i hlt
        split at h
        · cases h
        · rename_i sq hsq
          split at h
          · rename_i heq
            cases h
            refine ⟨?_, by omega, b, by rw [h1]; simp, hsq, h3, heq⟩
            intro hn
            rw [hn] at h2
            cases h2
          · cases h

example : Out.okAnd (seqLine [97, 45, 98] (List.replicate 16 0xAB))
    (fun l => Out.okAnd (splitSeqId l) (fun r => r = ([97, 45, 98], List.replicate 16 0xAB))) = true := by decide +kernel

/-! ## C37 -/

/-- The NEVR string of a package. -/
def nevrString (name : Bytes) (epoch : Option Bytes) (version release : Bytes) : Bytes :=
  match epoch with
  | none => name ++ [45] ++ version ++ [45] ++ release
  | some e => name ++ [45] ++ e ++ [58] ++ version ++ [45] ++ release

/-- C37. A NEVR string is split into the parts it was made of; names may contain dashes. -/
theorem C37_split (name : Bytes) (epoch : Option Bytes) (version release : Bytes) (hn : name ≠ [])
    (hc : epoch = none → 58 ∉ name) (he : ∀ e, epoch = some e → 45 ∉ e)
    (hv : 45 ∉ version ∧ 58 ∉ version) (hr : 45 ∉ release) :
    splitNevr (nevrString name epoch version release) = .ok (name, epoch, version, release) := by
  have hpos : name.length ≠ 0 := fun h => hn (List.length_eq_zero_iff.mp h)
  have dl : ∀ (c : UInt8) (a b : Bytes), (a ++ c :: b).drop (a.length + 1) = b := fun c a b => by
    rw [← List.drop_drop, List.drop_left]; rfl
  cases epoch with
  | none =>
    unfold nevrString splitNevr
    simp only [List.append_assoc, List.cons_append, List.nil_append]
    have e1 : name ++ 45 :: (version ++ 45 :: release) = (name ++ 45 :: version) ++ 45 :: release := by simp
    rw [e1, strrchr_last 45 _ _ hr]
    have h1 : (name ++ 45 :: version).length = (name.length + version.length) + 1 := by simp; omega
    rw [h1]
    simp only
    rw [← h1, dl, List.take_left, strrchr_none (c := 58) (s := name ++ 45 :: version) (by
      simp only [List.mem_append, List.mem_cons, not_or]
      exact ⟨hc rfl, by decide, hv.2⟩)]
    simp only
    rw [strrchr_last 45 _ _ hv.1]
    cases hl : name.length with
    | zero => exact absurd hl hpos
    | succ k =>
      simp only
      rw [← hl, dl, List.take_left]
  | some e =>
    unfold nevrString splitNevr
    simp only [List.append_assoc, List.cons_append, List.nil_append]
    have e1 : name ++ 45 :: (e ++ 58 :: (version ++ 45 :: release)) = (name ++ 45 :: (e ++ 58 :: version)) ++ 45 :: release := by
      simp
    rw [e1, strrchr_last 45 _ _ hr]
    have h1 : (name ++ 45 :: (e ++ 58 :: version)).length = (name.length + (e.length + 1 + version.length)) + 1 := by
      simp; omega
    rw [h1]
    simp only
    have e2 : name ++ 45 :: (e ++ 58 :: version) = (name ++ 45 :: e) ++ 58 :: version := by simp
    rw [← h1, dl, List.take_left, e2, strrchr_last 58 _ _ hv.2]
    have h2 : (name ++ 45 :: e).length = (name.length + e.length) + 1 := by simp; omega
    rw [h2]
    simp only
    rw [← h2, dl, List.take_left, strrchr_last 45 _ _ (he e rfl)]
    cases hl : name.length with
    | zero => exact absurd hl hpos
    | succ k =>
      simp only
      rw [← hl, dl, List.take_left]

example : splitNevr (nevrString [97, 45, 98] (some [49]) [50, 46, 48] [51]) = .ok ([97, 45, 98], some [49], [50, 46, 48], [51]) := by
  decide +kernel

/-- Different packages have different NEVR strings. -/
theorem C37_injective (n1 n2 : Bytes) (e1 e2 : Option Bytes) (v1 v2 r1 r2 : Bytes) (h1 : n1 ≠ []) (h2 : n2 ≠ [])
    (c1 : e1 = none → 58 ∉ n1) (c2 : e2 = none → 58 ∉ n2) (d1 : ∀ e, e1 = some e → 45 ∉ e) (d2 : ∀ e, e2 = some e → 45 ∉ e)
    (f1 : 45 ∉ v1 ∧ 58 ∉ v1) (f2 : 45 ∉ v2 ∧ 58 ∉ v2) (g1 : 45 ∉ r1) (g2 : 45 ∉ r2)
    (h : nevrString n1 e1 v1 r1 = nevrString n2 e2 v2 r2) : n1 = n2 ∧ e1 = e2 ∧ v1 = v2 ∧ r1 = r2 := by
  have a := C37_split n1 e1 v1 r1 h1 c1 d1 f1 g1
  rw [h, C37_split n2 e2 v2 r2 h2 c2 d2 f2 g2] at a
  cases a
  exact ⟨rfl, rfl, rfl, rfl⟩

end Drpm
