import Verif.DeltaSpec
import Verif.MakeLemmas
/-!
# Lemmas for C92: the model against the specification of the delta format
-/

namespace Drpm

/-! ## Numbers -/

theorem ofNat_mod (n : Nat) : UInt8.ofNat (n % 256) = UInt8.ofNat n := by
  apply UInt8.toNat_inj.1
  simp [UInt8.toNat_ofNat']

theorem bigEnd4 (n : Nat) : bigEnd 4 n = createBe32 n := by
  unfold bigEnd createBe32
  simp only [List.range, List.range.loop, List.reverse_cons, List.reverse_nil, List.nil_append,
    List.cons_append, List.map_cons, List.map_nil, ofNat_mod, Nat.shiftRight_eq_div_pow]
  simp

theorem bigEnd8 (n : Nat) : bigEnd 8 n = createBe64 n := by
  unfold bigEnd createBe64
  simp only [List.range, List.range.loop, List.reverse_cons, List.reverse_nil, List.nil_append,
    List.cons_append, List.map_cons, List.map_nil, ofNat_mod, Nat.shiftRight_eq_div_pow]
  simp

theorem sized_eq (b : Bytes) : sized b = writeBuf b := by
  unfold sized writeBuf
  rw [bigEnd4]

theorem signMag_eq (x : Nat) (h : x < 2^32) (hx : x ≠ 2^31) : signMag (s32 x) = createBe32 (smEncode x) := by
  unfold signMag
  rw [bigEnd4, C08_representation x h hx]
  congr 1
  split <;> omega

/-! ## The text of a delta -/

/-- The contents of a delta about to be written. -/
def infoOf (d : Delta) (ptrs : List Bytes) (c : Comp) : DeltaInfo :=
  { version := d.version, source := d.srcNevr, sequence := d.sequence, md5 := d.tgtMd5, size := d.tgtSize,
    comp := c, level := d.tgtCompLevel, params := d.tgtCompParam, headerLen := d.tgtHeaderLen,
    adjust := d.offadj.map fun p => (p.1, s32 p.2), leadsig := d.tgtLeadsig, fmtOff := d.payloadFmtOff,
    ints := d.ints, exts := d.exts.map fun p => (s32 p.1, p.2), oldLen := d.extDataLen, add := d.addData,
    data := ptrs.flatten }

theorem flatMap_ext {α β : Type} {l : List α} {f g : α → List β} (h : ∀ x ∈ l, f x = g x) :
    l.flatMap f = l.flatMap g := by
  induction l with
  | nil => rfl
  | cons x l ih =>
    rw [List.flatMap_cons, List.flatMap_cons, h x List.mem_cons_self, ih fun y hy => h y (List.mem_cons_of_mem _ hy)]

theorem encodeComp_code (c : Comp) (hc : c ≠ .lzip) (l : Nat) :
    encodeComp c.code l = some (methodNumber c + 256 * l) := by
  have key : ∀ lo, lo < 8 → lo ||| (l <<< 8) = lo + 256 * l := by
    intro lo hlo
    rw [Nat.or_comm, ← Nat.shiftLeft_add_eq_or_of_lt (by omega : lo < 2^8), Nat.shiftLeft_eq]
    omega
  cases c <;> simp only [Comp.code, encodeComp, methodNumber] <;> first | exact absurd rfl hc | skip
  all_goals rw [key _ (by omega)]

theorem writeV3_text {d : Delta} {ptrs : List Bytes} (hd : d.Made ptrs) (c : Comp) :
    writeV3 d = .ok (if d.version = 3 then (infoOf d ptrs c).part3 else []) := by
  obtain ⟨o1, o2, o3, o4⟩ := hd.offadj
  have hv := hd.version
  unfold writeV3
  split
  · rw [if_pos (by omega), o1, pairRounds_small _ o2, writeElems_ok _ _ _ 0 (by omega), Out.bind_ok,
      writeElems_ok _ _ _ 0 (by omega), Out.bind_ok]
    unfold DeltaInfo.part3 infoOf
    simp only [List.drop_zero, List.flatMap_map, List.length_map, bigEnd4]
    congr 2
    exact flatMap_ext fun p hp => (signMag_eq _ (o3 p hp).2 (o4 p hp)).symm
  · rw [if_neg (by omega)]

theorem writeV2_text {d : Delta} {ptrs : List Bytes} (hd : d.Made ptrs) {c : Comp} (hc : d.tgtComp = c.code)
    (hl : c ≠ .lzip) :
    writeV2 d = .ok ((if 2 ≤ d.version then (infoOf d ptrs c).part2 else []) ++
      if d.version = 3 then (infoOf d ptrs c).part3 else []) := by
  unfold writeV2
  split
  · rename_i hv
    rw [hc, encodeComp_code c hl]
    simp only
    rw [writeV3_text hd c, Out.bind_ok]
    unfold DeltaInfo.part2
    simp only [bigEnd4, sized_eq]
    rfl
  · rename_i hv
    rw [if_neg (by omega)]
    rfl

theorem writeLen_text {d : Delta} {ptrs : List Bytes} (hd : d.Made ptrs) (c : Comp) (n : Nat)
    (hn : d.version < 3 → n < 2^32) : writeLen d.version n = (infoOf d ptrs c).long n := by
  have hv := hd.version
  unfold writeLen DeltaInfo.long
  rw [show (infoOf d ptrs c).version = d.version from rfl]
  split
  · rw [if_pos (by omega), bigEnd8]
  · rw [if_neg (by omega), bigEnd4, Nat.mod_eq_of_lt (hn (by omega))]

/-- The writer writes the text of the specification. -/
theorem writeStream_text {d : Delta} {ptrs : List Bytes} (hd : d.Made ptrs) {c : Comp} (hc : d.tgtComp = c.code)
    (hl : c ≠ .lzip) : writeStream d = .ok ((infoOf d ptrs c).text d.type) := by
  obtain ⟨i1, i2, i3⟩ := hd.ints
  obtain ⟨x1, x2, x3, x4⟩ := hd.exts
  obtain ⟨p1, p2, p3, p4⟩ := hd.data
  unfold writeStream
  rw [writeV2_text hd hc hl, Out.bind_ok, i1, x1, pairRounds_small _ i2, pairRounds_small _ x2,
    writeElems_ok _ _ _ 0 (by omega), Out.bind_ok, writeElems_ok _ _ _ 0 (by omega), Out.bind_ok,
    writeElems_ok _ _ _ 0 (by omega), Out.bind_ok, writeElems_ok _ _ _ 0 (by omega), Out.bind_ok]
  unfold writeIntData
  rw [p1]
  simp only
  rw [i1, writePtrs_ok _ _ _ 0 p2 (by omega), Out.bind_ok, writeCStr_eq _ (by have := hd.srcNevr.1; omega),
    writeLen_text hd c _ (fun h => (hd.old h).2.2.1), writeLen_text hd c _ (fun h => (hd.old h).2.2.2), p3]
  have hadd : writeAdd d = sized (if d.type = .rpmonly then [] else d.addData) := by
    unfold writeAdd
    rw [sized_eq]
    cases d.type <;> rfl
  have hx : (d.exts.map fun p => (s32 p.1, p.2)).flatMap (fun c => signMag c.1) =
      (d.exts.map fun p => smEncode p.1).flatMap createBe32 := by
    rw [List.flatMap_map, List.flatMap_map]
    exact flatMap_ext fun p hp => signMag_eq _ (x3 p hp).1 (x4 p hp)
  rw [hadd]
  unfold DeltaInfo.text DeltaInfo.copies
  refine congrArg Out.ok ?_
  simp only [infoOf, List.length_map, hx, List.flatMap_map, bigEnd4, sized_eq, List.drop_zero, List.append_assoc]
  unfold DeltaInfo.mark versionBytes writeBuf
  simp only [List.length_append, List.length_cons, List.length_nil, Nat.zero_add, List.append_assoc]
  rfl

/-! ## From the specification to the model -/

/-- Data cut into pieces of the given lengths. -/
def cutBy : List Nat → Bytes → List Bytes
  | [], _ => []
  | n :: ns, b => b.take n :: cutBy ns (b.drop n)

theorem cutBy_ok : ∀ (ns : List Nat) (b : Bytes), b.length = ns.sum →
    (cutBy ns b).map List.length = ns ∧ (cutBy ns b).flatten = b := by
  intro ns
  induction ns with
  | nil => intro b h; exact ⟨rfl, (List.length_eq_zero_iff.1 h).symm⟩
  | cons n ns ih =>
    intro b h
    rw [List.sum_cons] at h
    obtain ⟨h1, h2⟩ := ih (b.drop n) (by rw [List.length_drop]; omega)
    constructor
    · rw [cutBy, List.map_cons, h1, List.length_take, Nat.min_eq_left (by omega)]
    · rw [cutBy, List.flatten_cons, h2, List.take_append_drop]

/-- The delta with the given contents, as the writer gets it. -/
def toDelta (t : DType) (target : Bytes) (f : DeltaInfo) : Delta :=
  { type := t, comp := 0, tgtNevr := target, version := f.version, srcNevr := f.source, sequence := f.sequence,
    tgtMd5 := f.md5, tgtSize := f.size, tgtComp := f.comp.code, tgtCompLevel := f.level, tgtCompParam := f.params,
    tgtHeaderLen := f.headerLen, offadjCount := f.adjust.length,
    offadj := f.adjust.map fun a => (a.1, u32OfInt a.2), tgtLeadsig := f.leadsig, payloadFmtOff := f.fmtOff,
    intCount := f.ints.length, extCount := f.exts.length, ints := f.ints,
    exts := f.exts.map fun c => (u32OfInt c.1, c.2), extDataLen := f.oldLen, addData := f.add,
    intDataLen := f.data.length, intPtrs := some (cutBy (f.ints.map (·.2)) f.data), intBytes := [] }

theorem u32OfInt_lt (i : Int) : u32OfInt i < 2^32 := by
  unfold u32OfInt
  omega

theorem u32OfInt_ne {i : Int} (h1 : -2^31 < i) (h2 : i < 2^31) : u32OfInt i ≠ 2^31 := by
  unfold u32OfInt
  omega

theorem copiesFit_words {limit : Nat} : ∀ (exts : List (Int × Nat)) (p : Nat),
    (∀ c ∈ exts, -2^31 < c.1 ∧ c.1 < 2^31) → CopiesFit limit p exts →
    CopiesInside limit p (exts.map fun c => (u32OfInt c.1, c.2)) ∧
      EndsPositive p (exts.map fun c => (u32OfInt c.1, c.2)) := by
  intro exts
  induction exts with
  | nil => intro p _ _; exact ⟨trivial, trivial⟩
  | cons x exts ih =>
    intro p hx h
    obtain ⟨z, n⟩ := x
    obtain ⟨q, h1, h2, h3, h4⟩ := h
    have hz := hx (z, n) List.mem_cons_self
    have e : s32 (u32OfInt z) = z := s32_u32OfInt z (Int.le_of_lt hz.1) hz.2
    obtain ⟨k1, k2⟩ := ih (q + n) (fun c hc => hx c (List.mem_cons_of_mem _ hc)) h4
    refine ⟨⟨q, by rw [e, h1], h2, k1⟩, ?_⟩
    have hq : ((p : Int) + s32 (u32OfInt z)).toNat = q := by rw [e, ← h1]; rfl
    show ((p : Int) + s32 (u32OfInt z)).toNat + n ≠ 0 ∧ EndsPositive (((p : Int) + s32 (u32OfInt z)).toNat + n) _
    rw [hq]
    exact ⟨by omega, k2⟩

theorem toDelta_made {t : DType} {f : DeltaInfo} (hf : f.WellFormed t) {target : Bytes}
    (ht : t = .rpmonly → target.length + 1 < 2^31 - 2^12 ∧ NoNul target) :
    (toDelta t target f).Made (cutBy (f.ints.map (·.2)) f.data) := by
  have hcut := cutBy_ok (f.ints.map (·.2)) f.data hf.data.1
  obtain ⟨c1, c2⟩ := copiesFit_words f.exts 0 (fun c hc => ⟨(hf.exts.2 c hc).1, (hf.exts.2 c hc).2.1⟩) hf.fit.2
  have hv := hf.version
  constructor
  · show 1 ≤ f.version ∧ f.version ≤ 3
    omega
  · intro h
    have h : t = .rpmonly := h
    have hv3 : f.version = 3 := by
      rcases hv with h3 | ⟨h1, _⟩
      · exact h3
      · rw [h] at h1; cases h1
    exact ⟨hv3, (hf.rpmonly h).1, (hf.rpmonly h).2, (ht h).1, (ht h).2, hf.add⟩
  · exact hf.source
  · exact hf.sequence
  · exact hf.md5
  · exact hf.size
  · refine ⟨?_, hf.comp.2⟩
    have := hf.comp.1
    show f.comp.code ∈ _
    revert this
    cases f.comp <;> intro this <;> first | exact absurd rfl this | simp [Comp.code]
  · exact hf.params
  · exact hf.headerLen
  · refine ⟨(List.length_map _).symm, by show (List.map _ _).length < _; rw [List.length_map]; exact hf.adjust.1, ?_, ?_⟩
    · intro p hp
      obtain ⟨a, ha, rfl⟩ := List.mem_map.1 hp
      exact ⟨(hf.adjust.2 a ha).1, u32OfInt_lt _⟩
    · intro p hp
      obtain ⟨a, ha, rfl⟩ := List.mem_map.1 hp
      exact u32OfInt_ne (hf.adjust.2 a ha).2.1 (hf.adjust.2 a ha).2.2
  · intro h
    have h : f.version < 3 := h
    obtain ⟨h2, h3, h4⟩ := hf.early (by omega)
    have h1 : f.headerLen = 0 := by
      rcases hv with h5 | ⟨h5, _⟩
      · omega
      · exact hf.standard h5
    exact ⟨h1, by show List.map _ f.adjust = []; rw [h2]; rfl, h3, h4⟩
  · exact hf.leadsig
  · exact hf.fmtOff
  · exact ⟨rfl, hf.ints.1, hf.ints.2⟩
  · refine ⟨(List.length_map _).symm, by show (List.map _ _).length < _; rw [List.length_map]; exact hf.exts.1, ?_, ?_⟩
    · intro p hp
      obtain ⟨a, ha, rfl⟩ := List.mem_map.1 hp
      exact ⟨u32OfInt_lt _, (hf.exts.2 a ha).2.2⟩
    · intro p hp
      obtain ⟨a, ha, rfl⟩ := List.mem_map.1 hp
      exact u32OfInt_ne (hf.exts.2 a ha).1 (hf.exts.2 a ha).2.1
  · exact ⟨hf.fit.1, c1, c2⟩
  · exact Nat.lt_trans hf.add (by omega)
  · exact ⟨rfl, hcut.1, by rw [hcut.2]; rfl, hf.data.2⟩

theorem map_back {α : Type} {l : List α} {g : α → α} (h : ∀ x ∈ l, g x = x) : l.map g = l := by
  induction l with
  | nil => rfl
  | cons x l ih => rw [List.map_cons, h x List.mem_cons_self, ih fun y hy => h y (List.mem_cons_of_mem _ hy)]

theorem infoOf_toDelta {t : DType} {f : DeltaInfo} (hf : f.WellFormed t) (target : Bytes) :
    infoOf (toDelta t target f) (cutBy (f.ints.map (·.2)) f.data) f.comp = f := by
  have hcut := (cutBy_ok (f.ints.map (·.2)) f.data hf.data.1).2
  have e1 : (f.adjust.map fun a => (a.1, u32OfInt a.2)).map (fun p => (p.1, s32 p.2)) = f.adjust := by
    rw [List.map_map]
    exact map_back fun a ha => by
      show (a.1, s32 (u32OfInt a.2)) = a
      rw [s32_u32OfInt _ (Int.le_of_lt (hf.adjust.2 a ha).2.1) (hf.adjust.2 a ha).2.2]
  have e2 : (f.exts.map fun c => (u32OfInt c.1, c.2)).map (fun p => (s32 p.1, p.2)) = f.exts := by
    rw [List.map_map]
    exact map_back fun a ha => by
      show (s32 (u32OfInt a.1), a.2) = a
      rw [s32_u32OfInt _ (Int.le_of_lt (hf.exts.2 a ha).1) (hf.exts.2 a ha).2.1]
  unfold infoOf
  simp only [toDelta, e1, e2, hcut]

theorem toDelta_text {t : DType} {f : DeltaInfo} (hf : f.WellFormed t) {target : Bytes}
    (ht : t = .rpmonly → target.length + 1 < 2^31 - 2^12 ∧ NoNul target) :
    writeStream (toDelta t target f) = .ok (f.text t) := by
  have := writeStream_text (toDelta_made hf ht) (c := f.comp) rfl hf.comp.1
  rw [infoOf_toDelta hf target] at this
  exact this

/-! ## Reading -/

theorem openStream_stored {dec : Decoder} {z s : Bytes} {c : Comp} (h : StoredAs dec z c s) :
    openStream dec z = .ok (c, s) := by
  cases h with
  | plain h8 h => exact openStream_plain dec z h8 h
  | packed c hc h8 h => exact openStream_packed dec z c hc h8 h

theorem openAdd_plain (dec : Decoder) (z : Bytes) (h : 8 ≤ z.length) (hm : ∀ c, c ≠ .none → ¬ magicBytes c <+: z) :
    openAdd dec z = .ok (some z) := by
  obtain ⟨m, e, hd⟩ := detect_iff z h
  have : detectComp m = .none := by
    by_cases hn : detectComp m = .none
    · exact hn
    · exact absurd ((hd _ hn).1 rfl) (hm _ hn)
  unfold openAdd
  rw [if_neg (by omega), if_neg (by omega), e, Out.bind_ok, this]

theorem openAdd_stored {dec : Decoder} {z : Bytes} {add : Option Bytes} (h : AddIs dec z add) :
    openAdd dec z = .ok add := by
  cases h with
  | absent => rfl
  | present h =>
    cases h with
    | plain h8 h => exact openAdd_plain dec z h8 h
    | packed _ hc h8 h => exact openAdd_packed dec z _ hc h8 h

theorem read_rpmonly {f : DeltaInfo} (hf : f.WellFormed .rpmonly) {target : Bytes}
    (ht : target.length + 1 < 2^31 - 2^12 ∧ NoNul target) {dec : Decoder} {z : Bytes} {c : Comp}
    (hz : StoredAs dec z c (f.text .rpmonly)) (rpmR : Bytes → Out (Nat × Nat)) :
    ∃ r, readDelta dec rpmR (f.rpmonlyHead target ++ z) = .ok r ∧
      SameDelta (toDelta .rpmonly target f) (cutBy (f.ints.map (·.2)) f.data) r := by
  have hd := toDelta_made hf (target := target) (fun _ => ht)
  have hv : f.version = 3 := (hd.rpmonly rfl).1
  obtain ⟨s, d', e1, e2, e3, _⟩ := rdRest_write
    { Delta.zero with type := .rpmonly, tgtNevr := target, addData := f.add, comp := c.code } _ _ hd rfl ⟨rfl, rfl⟩
    (fun _ => rfl) rfl []
  rw [List.append_nil, toDelta_text hf (fun _ => ht)] at *
  cases e1
  refine ⟨d', ?_, e3⟩
  have hh : f.rpmonlyHead target = [100, 114, 112, 109] ++ versionBytes (toDelta .rpmonly target f).version ++
      writeCStr (toDelta .rpmonly target f).tgtNevr ++ writeBuf (toDelta .rpmonly target f).addData := by
    unfold DeltaInfo.rpmonlyHead
    rw [show (toDelta .rpmonly target f).version = 3 from hv, show (toDelta .rpmonly target f).tgtNevr = target from rfl,
      show (toDelta .rpmonly target f).addData = f.add from rfl,
      writeCStr_eq _ (show target.length + 1 < 2^32 by omega), sized_eq, sized_eq]
    unfold DeltaInfo.mark versionBytes writeBuf
    simp only [List.length_append, List.length_cons, List.length_nil, Nat.zero_add, List.append_assoc]
  rw [hh]
  unfold readDelta
  simp only [List.append_assoc]
  rw [show ([100, 114, 112, 109] : Bytes) = createBe32 0x6472706D by decide,
    fileBe32_create _ (by omega), Out.bind_ok]
  simp only [if_true]
  rw [rdRpmonlyHead_write _ _ _ hd rfl, Out.bind_ok]
  simp only
  rw [openStream_stored hz, Out.bind_ok]
  simp only
  rw [show (toDelta .rpmonly target f).tgtNevr = target from rfl, show (toDelta .rpmonly target f).addData = f.add from rfl,
    e2, Out.bind_ok]

theorem read_standard {f : DeltaInfo} (hf : f.WellFormed .standard) {dec : Decoder} {z head : Bytes} {c : Comp}
    (hz : StoredAs dec z c (f.text .standard)) {rpmR : Bytes → Out (Nat × Nat)} {hc : Nat}
    (hm : [0xED, 0xAB, 0xEE, 0xDB] <+: head) (hr : rpmR (head ++ z) = .ok (head.length, hc)) :
    ∃ r, readDelta dec rpmR (head ++ z) = .ok r ∧
      SameDelta (toDelta .standard [] f) (cutBy (f.ints.map (·.2)) f.data) r ∧
      (f.version = 1 → r.tgtComp = hc ∧ r.tgtCompLevel = 0) := by
  have hd := toDelta_made hf (target := []) (fun h => by cases h)
  obtain ⟨s, d', e1, e2, e3, _, _, e4, _⟩ := rdRest_write
    { Delta.zero with type := .standard, tgtComp := hc, comp := c.code } _ _ hd rfl ⟨rfl, rfl⟩
    (fun h => by cases h) rfl []
  rw [List.append_nil, toDelta_text hf (fun h => by cases h)] at *
  cases e1
  obtain ⟨t, rfl⟩ := hm
  refine ⟨d', ?_, e3, fun h => ⟨(e4 h).1, (e4 h).2.2.2⟩⟩
  unfold readDelta
  have hm : fileBe32 ([0xED, 0xAB, 0xEE, 0xDB] ++ t ++ z) = .ok (0xEDABEEDB, t ++ z) := by
    rw [List.append_assoc, show ([0xED, 0xAB, 0xEE, 0xDB] : Bytes) = createBe32 0xEDABEEDB by decide,
      fileBe32_create _ (by omega)]
  rw [hm, Out.bind_ok]
  simp only
  rw [if_neg (by decide), if_pos trivial, hr, Out.bind_ok]
  simp only [List.drop_left]
  rw [openStream_stored hz, Out.bind_ok]
  simp only
  rw [e2, Out.bind_ok]

end Drpm
