import Verif.FormatSpec
import Verif.UtilsLemmas
import Verif.WalkLemmas
/-! Helper lemmas about the delta file. -/

namespace Drpm

/-! ## Single fields -/

theorem rdN_append (x r : Bytes) (n : Nat) (h : x.length = n) : rdN n (x ++ r) = .ok (x, r) := by
  subst h
  simp [rdN]

theorem rdBe32_create (n : Nat) (h : n < 2^32) (r : Bytes) :
    rdBe32 (createBe32 n ++ r) = .ok (n, r) := by
  unfold rdBe32
  rw [rdN_append _ _ 4 rfl, Out.bind_ok]
  have := be32At_createBe32 n h []
  rw [List.append_nil] at this
  simp [this]

theorem rdBe64_create (n : Nat) (h : n < 2^64) (r : Bytes) :
    rdBe64 (createBe64 n ++ r) = .ok (n, r) := by
  unfold rdBe64
  rw [rdN_append _ _ 8 rfl, Out.bind_ok]
  have := be64At_createBe64 n h []
  rw [List.append_nil] at this
  simp [this]

theorem rdInto_append (cap n : Nat) (x r : Bytes) (h : x.length = n) (hc : n ≤ cap) :
    rdInto cap n (x ++ r) = .ok (x, r) := by
  unfold rdInto
  rw [P.bind_run, rdN_append x r n h, Out.bind_ok]
  simp only [if_pos hc]
  rfl

theorem rdBuf_write (b r : Bytes) (h : b.length < 2^32) :
    rdBuf (writeBuf b ++ r) = .ok (b, r) := by
  unfold rdBuf writeBuf
  rw [P.bind_run, List.append_assoc, rdBe32_create _ h, Out.bind_ok]
  exact rdInto_append _ _ _ _ rfl (by simp)

theorem takeWhile_all (s : Bytes) (h : ∀ c ∈ s, c ≠ 0) : (s ++ [0]).takeWhile (· ≠ 0) = s := by
  induction s with
  | nil => simp
  | cons c s ih =>
    have hc := h c (by simp)
    simp only [List.cons_append]
    rw [List.takeWhile_cons_of_pos (by simpa using hc), ih (fun x hx => h x (by simp [hx]))]

theorem rdNevr_write (s r : Bytes) (h : s.length + 2 < 2^32) (hz : ∀ c ∈ s, c ≠ 0) :
    rdNevr (s.length + 1) ((s ++ [0]) ++ r) = .ok (s, r) := by
  unfold rdNevr
  rw [P.bind_run, rdInto_append _ _ (s ++ [0]) r (by simp) (by omega), Out.bind_ok]
  simp only
  rw [if_pos (by omega), takeWhile_all s hz]
  rfl

/-! ## Arrays of pairs -/

theorem writeElems_ok (arr : List (Nat × Nat)) (sel : Nat × Nat → Nat) (n i : Nat)
    (h : n + i = arr.length) :
    writeElems arr sel n i = .ok (((arr.drop i).map sel).flatMap createBe32) := by
  induction n generalizing i with
  | zero =>
    have : arr.drop i = [] := by simp; omega
    simp [writeElems, this]
  | succ n ih =>
    unfold writeElems
    rw [rd_ok (by omega), Out.bind_ok, ih (i + 1) (by omega), Out.bind_ok,
      List.drop_eq_getElem_cons (by omega : i < arr.length)]
    simp only [List.map_cons, List.flatMap_cons]

theorem rdElems_write (cap : Nat) (conv : Nat → Nat) (l : List Nat) (i : Nat) (r : Bytes)
    (hw : ∀ x ∈ l, x < 2^32) (hcap : (i + 2 * l.length) * 4 ≤ cap + 4) :
    rdElems cap conv l.length i (l.flatMap createBe32 ++ r) = .ok (l.map conv, r) := by
  induction l generalizing i with
  | nil => rfl
  | cons x l ih =>
    simp only [List.length_cons, List.flatMap_cons, List.append_assoc]
    simp only [List.length_cons] at hcap
    unfold rdElems
    rw [P.bind_run, rdBe32_create x (hw x (by simp)), Out.bind_ok]
    simp only
    rw [P.bind_run, if_pos (by omega), P.pure_run, Out.bind_ok]
    simp only
    rw [P.bind_run, ih (i + 2) (fun y hy => hw y (by simp [hy])) (by omega), Out.bind_ok]
    rfl

theorem pairRounds_small (c : Nat) (h : c < 2^29) : pairRounds c = c := by
  unfold pairRounds; omega

theorem rdPairs_write (l : List (Nat × Nat)) (f g : Nat → Nat) (c1 c2 : Nat → Nat) (r : Bytes)
    (hl : l.length < 2^29) (hw : ∀ p ∈ l, f p.1 < 2^32 ∧ g p.2 < 2^32 ∧ c1 (f p.1) = p.1 ∧ c2 (g p.2) = p.2) :
    rdPairs l.length c1 c2 ((l.map (fun p => f p.1)).flatMap createBe32 ++
      ((l.map (fun p => g p.2)).flatMap createBe32 ++ r)) = .ok (l, r) := by
  unfold rdPairs
  rw [pairRounds_small _ hl]
  have hcap : (l.length * 2 % 2^32) * 4 % 2^32 = l.length * 8 := by omega
  rw [hcap, P.bind_run]
  have e1 := rdElems_write (l.length * 8) c1 (l.map (fun p => f p.1)) 0
    ((l.map (fun p => g p.2)).flatMap createBe32 ++ r)
    (by intro x hx; simp only [List.mem_map] at hx; obtain ⟨p, hp, rfl⟩ := hx; exact (hw p hp).1)
    (by simp; omega)
  rw [List.length_map] at e1
  rw [e1, Out.bind_ok]
  simp only
  have e2 := rdElems_write (l.length * 8) c2 (l.map (fun p => g p.2)) 1 r
    (by intro x hx; simp only [List.mem_map] at hx; obtain ⟨p, hp, rfl⟩ := hx; exact (hw p hp).2.1)
    (by simp; omega)
  rw [List.length_map] at e2
  rw [P.bind_run, e2, Out.bind_ok]
  simp only
  rw [P.pure_run]
  have : (List.map c1 (List.map (fun p => f p.1) l)).zip (List.map c2 (List.map (fun p => g p.2) l)) = l := by
    clear e1 e2 hl hcap
    induction l with
    | nil => rfl
    | cons p l ih =>
      have := hw p (by simp)
      simp only [List.map_cons, List.zip_cons_cons, ih (fun q hq => hw q (by simp [hq])), this.2.2.1, this.2.2.2]
  rw [this]

/-! ## Sign and magnitude -/

theorem or_two31 (x : Nat) (h : x < 2^31) : x ||| 2^31 = 2^31 + x := by
  rw [Nat.or_comm]
  have := Nat.two_pow_add_eq_or_of_lt h 1
  simpa using this.symm

theorem and_two31 (x : Nat) (h : x < 2^31) : x &&& 2^31 = 0 := by
  apply Nat.eq_of_testBit_eq
  intro i
  rw [Nat.testBit_and, Nat.testBit_two_pow, Nat.zero_testBit]
  by_cases hi : 31 = i
  · subst hi
    rw [Nat.testBit_lt_two_pow h]; rfl
  · simp [hi]

theorem and_two31' (x : Nat) (h : x < 2^31) : (2^31 + x) &&& 2^31 = 2^31 := by
  rw [← or_two31 x h]
  apply Nat.eq_of_testBit_eq
  intro i
  rw [Nat.testBit_and, Nat.testBit_or, Nat.testBit_two_pow]
  by_cases hi : 31 = i <;> simp [hi]

theorem xor_two31 (x : Nat) (h : x < 2^31) : (2^31 + x) ^^^ 2^31 = x := by
  have : (2^31 + x : Nat) = x ^^^ 2^31 := by
    rw [← or_two31 x h]
    apply Nat.eq_of_testBit_eq
    intro i
    rw [Nat.testBit_or, Nat.testBit_xor, Nat.testBit_two_pow]
    by_cases hi : 31 = i
    · subst hi
      rw [Nat.testBit_lt_two_pow h]; rfl
    · simp [hi]
  rw [this, Nat.xor_assoc, Nat.xor_self, Nat.xor_zero]

/-- What is written: the magnitude, with bit 31 as the sign. -/
theorem smEncode_val (x : Nat) (h : x < 2^32) (hx : x ≠ 2^31) :
    smEncode x = if x < 2^31 then x else 2^31 + (2^32 - x) := by
  unfold smEncode
  by_cases hl : x < 2^31
  · have : ¬ s32 x < 0 := by unfold s32; split <;> omega
    rw [if_neg this, if_pos hl]
  · have : s32 x < 0 := by unfold s32; split <;> omega
    rw [if_pos this, if_neg hl]
    have ht : twosComplement32 x = 2^32 - x := by unfold twosComplement32; omega
    rw [ht, or_two31 _ (by omega)]

theorem smDecode_lo (x : Nat) (h : x < 2^31) : smDecode x = x := by
  unfold smDecode
  rw [and_two31 x h]
  simp

theorem smDecode_hi (x : Nat) (h : x < 2^31) : smDecode (2^31 + x) = (2^32 - x) % 2^32 := by
  unfold smDecode
  rw [and_two31' x h, xor_two31 x h, if_pos (by decide)]
  unfold twosComplement32
  omega

theorem sm_roundtrip (x : Nat) (h : x < 2^32) (hx : x ≠ 2^31) : smDecode (smEncode x) = x := by
  rw [smEncode_val x h hx]
  split
  · exact smDecode_lo x (by assumption)
  · rw [smDecode_hi _ (by omega)]; omega

theorem smEncode_lt (x : Nat) (h : x < 2^32) (hx : x ≠ 2^31) : smEncode x < 2^32 := by
  rw [smEncode_val x h hx]; split <;> omega

/-! ## Checks -/

theorem extCheck_inside (limit p : Nat) (cs : List (Nat × Nat)) (hl : limit < 2^64 - 2^32)
    (hp : p ≤ limit) (hw : ∀ c ∈ cs, c.2 < 2^32) :
    extCheck limit p cs = true ↔ CopiesInside limit p cs ∧ EndsPositive p cs := by
  induction cs generalizing p with
  | nil => simp [extCheck, CopiesInside, EndsPositive]
  | cons c cs ih =>
    obtain ⟨w, n⟩ := c
    have hn : n < 2^32 := hw (w, n) (by simp)
    have hs : -(2^31) ≤ s32 w ∧ s32 w < 2^31 := by unfold s32; split <;> omega
    unfold extCheck CopiesInside EndsPositive
    simp only
    by_cases hneg : (p : Int) + s32 w < 0
    · have : u64OfInt ((p : Int) + s32 w) > limit := by unfold u64OfInt; omega
      rw [if_pos this]
      simp only [Bool.false_eq_true, false_iff, not_and]
      rintro ⟨q, hq, _⟩
      omega
    · obtain ⟨q, hq⟩ : ∃ q : Nat, (q : Int) = (p : Int) + s32 w := ⟨((p : Int) + s32 w).toNat, by omega⟩
      have hu : u64OfInt ((p : Int) + s32 w) = q := by unfold u64OfInt; omega
      have ht : ((p : Int) + s32 w).toNat = q := by omega
      rw [hu, ht]
      by_cases h1 : q > limit
      · rw [if_pos h1]
        simp only [Bool.false_eq_true, false_iff, not_and]
        rintro ⟨q', hq', hle, _⟩
        omega
      · rw [if_neg h1]
        have hm : (q + n) % 2^64 = q + n := by omega
        rw [hm]
        by_cases h2 : q + n = 0 ∨ q + n > limit
        · rw [if_pos h2]
          simp only [Bool.false_eq_true, false_iff, not_and]
          rintro ⟨q', hq', hle, _⟩
          omega
        · rw [if_neg h2, ih (q + n) (by omega) (fun c hc => hw c (by simp [hc]))]
          constructor
          · rintro ⟨a, b⟩
            exact ⟨⟨q, hq, by omega, a⟩, by omega, b⟩
          · rintro ⟨⟨q', hq', hle, a⟩, _, b⟩
            have : q' = q := by omega
            subst this
            exact ⟨a, b⟩

theorem intCheck_sum (limit p : Nat) (cs : List (Nat × Nat))
    (hb : p + (cs.map (·.2)).sum < 2^64) (hp : p ≤ limit) :
    intCheck limit p cs = true ↔ p + (cs.map (·.2)).sum ≤ limit := by
  induction cs generalizing p with
  | nil => simp [intCheck, hp]
  | cons c cs ih =>
    obtain ⟨w, n⟩ := c
    unfold intCheck
    simp only [List.map_cons, List.sum_cons] at hb ⊢
    rw [Nat.mod_eq_of_lt (by omega)]
    split
    · simp; omega
    · rw [ih (p + n) (by omega) (by omega)]; omega

/-! ## Internal data -/

theorem writePtrs_ok (ptrs : List Bytes) (ints : List (Nat × Nat)) (n i : Nat)
    (hl : ptrs.map List.length = ints.map (·.2)) (h : n + i = ints.length) :
    writePtrs ptrs ints n i = .ok (ptrs.drop i).flatten := by
  have hlen : ptrs.length = ints.length := by simpa using congrArg List.length hl
  induction n generalizing i with
  | zero =>
    have : ptrs.drop i = [] := by simp; omega
    simp [writePtrs, this]
  | succ n ih =>
    unfold writePtrs
    have hi : i < ints.length := by omega
    have hi' : i < ptrs.length := by omega
    have hx : ptrs[i].length = ints[i].2 := by
      have := congrArg (fun l => l[i]?) hl
      simpa [hi, hi'] using this
    rw [rd_ok hi, Out.bind_ok, rd_ok hi', Out.bind_ok, rdBlk_ok (by omega), Out.bind_ok,
      ih (i + 1) (by omega), Out.bind_ok, List.drop_eq_getElem_cons hi']
    simp only [← hx, slice_all, List.flatten_cons]

/-! ## The whole stream -/

theorem writeLen_read (v n : Nat) (r : Bytes) (hv : v ≤ 3) (h : n < 2^64) (h3 : v < 3 → n < 2^32) :
    rdLen v (writeLen v n ++ r) = .ok (n, r) := by
  unfold rdLen writeLen
  by_cases hv3 : v = 3
  · rw [if_pos hv3, if_pos (by omega)]
    exact rdBe64_create n h r
  · rw [if_neg hv3, if_neg (by omega), Nat.mod_eq_of_lt (h3 (by omega))]
    exact rdBe32_create n (h3 (by omega)) r

theorem rdVersion_write (t : DType) (v : Nat) (r : Bytes) (hv : v ≤ 3)
    (ht : t = .rpmonly → v = 3) : rdVersion t (versionBytes v ++ r) = .ok (v, r) := by
  have hb : rdBe32 (versionBytes v ++ r) = .ok (0x444C5430 + v, r) := by
    have : versionBytes v = createBe32 (0x444C5430 + v) := by
      match v, hv with
      | 0, _ => decide
      | 1, _ => decide
      | 2, _ => decide
      | 3, _ => decide
    rw [this]
    exact rdBe32_create _ (by omega) r
  unfold rdVersion
  rw [P.bind_run, hb, Out.bind_ok]
  simp only
  rw [if_neg (by rw [Nat.shiftRight_eq_div_pow]; simp only [ne_eq, Decidable.not_not]; omega)]
  have hv' : ((0x444C5430 + v) % 256 + 2^16 - 48) % 2^16 = v := by omega
  rw [hv', if_neg (by rintro ⟨a, b⟩; have := ht b; omega)]
  rfl

theorem writeCStr_eq (s : Bytes) (h : s.length + 1 < 2^32) :
    writeCStr s = createBe32 (s.length + 1) ++ (s ++ [0]) := by
  unfold writeCStr
  rw [Nat.mod_eq_of_lt h, List.take_of_length_le (by simp)]

theorem rdPart1_write (d0 d : Delta) (ptrs : List Bytes) (hd : d.Made ptrs) (ht : d0.type = d.type)
    (r : Bytes) :
    rdPart1 d0 (versionBytes d.version ++ (writeCStr d.srcNevr ++ (writeBuf d.sequence ++
      (d.tgtMd5 ++ r)))) =
    .ok ({ d0 with version := d.version, srcNevr := d.srcNevr, sequence := d.sequence,
                   tgtMd5 := d.tgtMd5 }, r) := by
  unfold rdPart1
  rw [P.bind_run, rdVersion_write _ _ _ hd.version.2 (fun h => (hd.rpmonly (ht ▸ h)).1), Out.bind_ok]
  simp only
  rw [P.bind_run, writeCStr_eq _ (by have := hd.srcNevr.1; omega), List.append_assoc,
    rdBe32_create _ (by have := hd.srcNevr.1; omega), Out.bind_ok]
  simp only
  rw [P.bind_run, rdNevr_write _ _ hd.srcNevr.1 hd.srcNevr.2, Out.bind_ok]
  simp only
  have hseq : rdSequence d0.type (writeBuf d.sequence ++ (d.tgtMd5 ++ r)) = .ok (d.sequence, d.tgtMd5 ++ r) := by
    unfold rdSequence writeBuf
    rw [P.bind_run, List.append_assoc, rdBe32_create _ hd.sequence.2, Out.bind_ok]
    simp only
    rw [if_neg]
    · exact rdInto_append _ _ _ _ rfl (by simp)
    · rintro (h | ⟨h1, h2⟩)
      · have := hd.sequence.1; omega
      · exact h1 (hd.rpmonly (ht ▸ h2)).2.1
  rw [P.bind_run, hseq, Out.bind_ok]
  simp only
  rw [P.bind_run, rdInto_append 16 16 d.tgtMd5 r hd.md5 (by omega), Out.bind_ok]
  rfl

theorem encodeComp_made (c l : Nat) (hc : c ∈ [0, 1, 2, 3, 4, 6]) (hl : l < 256) :
    ∃ e, encodeComp c l = some e ∧ e < 2^32 ∧ decodeComp e = some (c, l) := by
  have key : ∀ lo, lo < 8 → (lo ||| (l <<< 8)) &&& 255 = lo ∧
      ((lo ||| (l <<< 8)) >>> 8) &&& 255 = l ∧ lo ||| (l <<< 8) < 2^32 := by
    intro lo hlo
    rw [Nat.or_comm, ← Nat.shiftLeft_add_eq_or_of_lt (by omega : lo < 2^8)]
    rw [Nat.and_two_pow_sub_one_eq_mod _ 8, Nat.and_two_pow_sub_one_eq_mod _ 8,
      Nat.shiftLeft_eq, Nat.shiftRight_eq_div_pow]
    omega
  simp only [List.mem_cons, List.not_mem_nil, or_false] at hc
  rcases hc with rfl | rfl | rfl | rfl | rfl | rfl <;> simp only [encodeComp]
  · obtain ⟨a, b, c⟩ := key 0 (by omega); exact ⟨_, rfl, c, by simp only [decodeComp, a, b]⟩
  · obtain ⟨a, b, c⟩ := key 1 (by omega); exact ⟨_, rfl, c, by simp only [decodeComp, a, b]⟩
  · obtain ⟨a, b, c⟩ := key 2 (by omega); exact ⟨_, rfl, c, by simp only [decodeComp, a, b]⟩
  · obtain ⟨a, b, c⟩ := key 5 (by omega); exact ⟨_, rfl, c, by simp only [decodeComp, a, b]⟩
  · obtain ⟨a, b, c⟩ := key 6 (by omega); exact ⟨_, rfl, c, by simp only [decodeComp, a, b]⟩
  · obtain ⟨a, b, c⟩ := key 7 (by omega); exact ⟨_, rfl, c, by simp only [decodeComp, a, b]⟩

/-- What reading the version-dependent part gives. -/
def withV2 (d0 d : Delta) : Delta :=
  if d.version = 3 then
    { d0 with tgtSize := d.tgtSize, tgtComp := d.tgtComp, tgtCompLevel := d.tgtCompLevel, tgtCompParam := d.tgtCompParam, tgtHeaderLen := d.tgtHeaderLen, offadjCount := d.offadjCount, offadj := d.offadj }
  else if d.version = 2 then
    { d0 with tgtSize := d.tgtSize, tgtComp := d.tgtComp, tgtCompLevel := d.tgtCompLevel, tgtCompParam := d.tgtCompParam }
  else d0

theorem rdV2_write (d0 d : Delta) (ptrs : List Bytes) (hd : d.Made ptrs)
    (hv : d0.version = d.version) (r : Bytes) :
    ∃ v2, writeV2 d = .ok v2 ∧ rdV2 d0 (v2 ++ r) = .ok (withV2 d0 d, r) := by
  have hver := hd.version
  by_cases h2 : d.version ≥ 2
  · obtain ⟨c, hc1, hc2, hc3⟩ := encodeComp_made d.tgtComp d.tgtCompLevel hd.comp.1 hd.comp.2
    obtain ⟨v3, hw3, hr3⟩ : ∃ v3, writeV3 d = .ok v3 ∧ ∀ d1 : Delta, d1.version = d.version →
        rdV3 d1 (v3 ++ r) = .ok (if d.version = 3 then { d1 with tgtHeaderLen := d.tgtHeaderLen, offadjCount := d.offadjCount, offadj := d.offadj } else d1, r) := by
      by_cases h3 : d.version = 3
      · obtain ⟨o1, o2, o3, o4⟩ := hd.offadj
        refine ⟨_, by
          unfold writeV3
          rw [if_pos (by omega), pairRounds_small _ (by omega),
            writeElems_ok _ _ _ _ (by omega), Out.bind_ok, writeElems_ok _ _ _ _ (by omega), Out.bind_ok], ?_⟩
        intro d1 hd1
        unfold rdV3
        simp only [List.append_assoc, List.drop_zero]
        rw [if_pos (by omega), P.bind_run, rdBe32_create _ hd.header, Out.bind_ok]
        simp only
        rw [P.bind_run, rdBe32_create _ (by omega), Out.bind_ok]
        simp only
        have e := rdPairs_write d.offadj id smEncode id smDecode r o2 (by
          intro p hp
          have h1 := o3 p hp
          have h2 := o4 p hp
          exact ⟨h1.1, smEncode_lt _ h1.2 h2, rfl, sm_roundtrip _ h1.2 h2⟩)
        simp only [id_eq] at e
        rw [P.bind_run, o1, e, Out.bind_ok, if_pos h3]
        rfl
      · refine ⟨[], by unfold writeV3; rw [if_neg (by omega)], ?_⟩
        intro d1 hd1
        unfold rdV3
        rw [if_neg (by omega), if_neg h3]
        rfl
    refine ⟨_, by unfold writeV2; rw [if_pos h2, hc1]; simp only; rw [hw3, Out.bind_ok], ?_⟩
    unfold rdV2
    simp only [List.append_assoc]
    rw [if_pos (by omega), P.bind_run, rdBe32_create _ hd.size, Out.bind_ok]
    simp only
    rw [P.bind_run, rdBe32_create _ hc2, Out.bind_ok]
    simp only
    unfold rdTgtComp
    rw [hc3, P.bind_run]
    simp only
    rw [P.pure_run, Out.bind_ok]
    simp only
    rw [P.bind_run, rdBuf_write _ _ hd.param, Out.bind_ok]
    simp only
    rw [hr3 _ (by simpa using hv)]
    unfold withV2
    by_cases h3 : d.version = 3
    · simp [h3]
    · simp [h3, show d.version = 2 by omega]
  · refine ⟨[], by unfold writeV2; rw [if_neg h2], ?_⟩
    unfold rdV2 withV2
    rw [if_neg (by omega), if_neg (by omega), if_neg (by omega)]
    rfl

theorem rdPart3_write (d0 d : Delta) (ptrs : List Bytes) (hd : d.Made ptrs) (ht : d0.type = d.type)
    (hh : d0.tgtHeaderLen = d.tgtHeaderLen) (r : Bytes) :
    ∃ ie io ee eo, writeElems d.ints (fun p => p.1) (pairRounds d.intCount) 0 = .ok ie ∧
      writeElems d.ints (fun p => p.2) (pairRounds d.intCount) 0 = .ok io ∧
      writeElems d.exts (fun p => smEncode p.1) (pairRounds d.extCount) 0 = .ok ee ∧
      writeElems d.exts (fun p => p.2) (pairRounds d.extCount) 0 = .ok eo ∧
      rdPart3 d0 (writeBuf d.tgtLeadsig ++ (createBe32 d.payloadFmtOff ++ (createBe32 d.intCount ++
        (createBe32 d.extCount ++ (ie ++ (io ++ (ee ++ (eo ++ r)))))))) =
      .ok ({ d0 with tgtLeadsig := d.tgtLeadsig, payloadFmtOff := d.payloadFmtOff, intCount := d.intCount, extCount := d.extCount, ints := d.ints, exts := d.exts }, r) := by
  obtain ⟨i1, i2, i3⟩ := hd.ints
  obtain ⟨x1, x2, x3, x4⟩ := hd.exts
  refine ⟨_, _, _, _, by rw [pairRounds_small _ (by omega)]; exact writeElems_ok _ _ _ _ (by omega),
    by rw [pairRounds_small _ (by omega)]; exact writeElems_ok _ _ _ _ (by omega),
    by rw [pairRounds_small _ (by omega)]; exact writeElems_ok _ _ _ _ (by omega),
    by rw [pairRounds_small _ (by omega)]; exact writeElems_ok _ _ _ _ (by omega), ?_⟩
  simp only [List.drop_zero]
  have hg : ∀ s, rdHeaderGuard d0 s = .ok ((), s) := by
    intro s
    unfold rdHeaderGuard
    rw [if_neg]
    · rfl
    · rintro ⟨a, b⟩
      have := (hd.rpmonly (ht ▸ b)).2.2.1
      omega
  unfold rdPart3
  rw [P.bind_run, hg, Out.bind_ok]
  simp only
  have hls : ∀ q, rdLeadsig (writeBuf d.tgtLeadsig ++ q) = .ok (d.tgtLeadsig, q) := by
    intro q
    unfold rdLeadsig writeBuf
    rw [P.bind_run, List.append_assoc, rdBe32_create _ hd.leadsig.2, Out.bind_ok]
    simp only
    rw [if_neg (by have := hd.leadsig.1; omega)]
    exact rdInto_append _ _ _ _ rfl (by simp)
  rw [P.bind_run, hls, Out.bind_ok]
  simp only
  rw [P.bind_run, rdBe32_create _ hd.fmt, Out.bind_ok]
  simp only
  rw [P.bind_run, rdBe32_create _ (by omega), Out.bind_ok]
  simp only
  rw [P.bind_run, rdBe32_create _ (by omega), Out.bind_ok]
  simp only
  have e1 := fun q => rdPairs_write d.ints id id id id q i2 (by
    intro p hp
    have h1 := i3 p hp
    exact ⟨h1.1, h1.2, rfl, rfl⟩)
  have e2 := fun q => rdPairs_write d.exts smEncode id smDecode id q x2 (by
    intro p hp
    have h1 := x3 p hp
    have h2 := x4 p hp
    exact ⟨smEncode_lt _ h1.1 h2, h1.2, sm_roundtrip _ h1.1 h2, rfl⟩)
  simp only [id_eq] at e1 e2
  rw [P.bind_run, i1, e1, Out.bind_ok]
  simp only
  rw [P.bind_run, x1, e2, Out.bind_ok]
  rfl

theorem rdPart4_write (d0 d : Delta) (ptrs : List Bytes) (hd : d.Made ptrs) (ht : d0.type = d.type)
    (hv : d0.version = d.version) (hadd : d0.addData = if d.type = .rpmonly then d.addData else [])
    (r : Bytes) :
    ∃ data, writeIntData d = .ok data ∧
      rdPart4 d0 (writeLen d.version d.extDataLen ++ (writeAdd d ++
        (writeLen d.version d.intDataLen ++ (data ++ r)))) =
      .ok ({ d0 with extDataLen := d.extDataLen, addData := d.addData, intDataLen := d.intDataLen, intPtrs := none, intBytes := ptrs.flatten }, r) := by
  obtain ⟨p1, p2, p3, p4⟩ := hd.data
  obtain ⟨i1, i2, i3⟩ := hd.ints
  refine ⟨ptrs.flatten, ?_, ?_⟩
  · unfold writeIntData
    rw [p1]
    simp only
    rw [writePtrs_ok _ _ _ _ p2 (by omega), List.drop_zero]
  · have hver := hd.version
    unfold rdPart4
    rw [P.bind_run, hv, writeLen_read _ _ _ hver.2 (by have := hd.ext.1; omega)
      (fun h => (hd.old h).2.2.1), Out.bind_ok]
    simp only
    have ha : ∀ q, rdAdd d0.type d0.addData (writeAdd d ++ q) = .ok (d.addData, q) := by
      intro q
      unfold rdAdd writeAdd
      rw [ht, hadd]
      cases hty : d.type with
      | standard =>
        simp only [reduceCtorEq, if_false, writeBuf, List.append_assoc]
        rw [P.bind_run, rdBe32_create _ hd.add, Out.bind_ok]
        simp only
        split
        · exact rdInto_append _ _ _ _ rfl (by simp)
        · rename_i h
          have : d.addData = [] := by apply List.eq_nil_of_length_eq_zero; omega
          simp [this, P.pure_run]
      | rpmonly =>
        simp only [if_true]
        rw [P.bind_run, rdBe32_create _ (by omega), Out.bind_ok]
        rfl
    rw [P.bind_run, ha, Out.bind_ok]
    simp only
    rw [P.bind_run, writeLen_read _ _ _ hver.2 p4 (fun h => (hd.old h).2.2.2), Out.bind_ok]
    simp only
    rw [P.bind_run, rdInto_append _ _ ptrs.flatten r p3.symm (by simp), Out.bind_ok]
    rfl

theorem sum_map_length (l : List Bytes) : (l.map List.length).sum = l.flatten.length := by
  simp [List.length_flatten]

theorem rdRest_write (d0 d : Delta) (ptrs : List Bytes) (hd : d.Made ptrs) (ht : d0.type = d.type)
    (hz : d0.tgtHeaderLen = 0 ∧ d0.offadj = [])
    (hn : d.type = .rpmonly → d0.tgtNevr = d.tgtNevr)
    (hadd : d0.addData = if d.type = .rpmonly then d.addData else []) (r : Bytes) :
    ∃ s d', writeStream d = .ok s ∧ rdRest d0 (s ++ r) = .ok (d', r) ∧ SameDelta d ptrs d' ∧
      d'.comp = d0.comp ∧ d'.offadjCount = (if d.version = 3 then d.offadjCount else d0.offadjCount) ∧
      (d.version = 1 → d'.tgtComp = d0.tgtComp ∧ d'.tgtSize = d0.tgtSize ∧ d'.tgtCompParam = d0.tgtCompParam ∧
        d'.tgtCompLevel = d0.tgtCompLevel) ∧
      8 ≤ s.length ∧ s.take 4 = versionBytes d.version := by
  have hver := hd.version
  -- what is known after each part
  let d1 : Delta := { d0 with version := d.version, srcNevr := d.srcNevr, sequence := d.sequence,
                              tgtMd5 := d.tgtMd5 }
  let d2 : Delta := withV2 d1 d
  let d3 : Delta := { d2 with tgtLeadsig := d.tgtLeadsig, payloadFmtOff := d.payloadFmtOff, intCount := d.intCount, extCount := d.extCount, ints := d.ints, exts := d.exts }
  let d4 : Delta := { d3 with extDataLen := d.extDataLen, addData := d.addData, intDataLen := d.intDataLen, intPtrs := none, intBytes := ptrs.flatten }
  have h2t : d2.type = d.type := by
    show (withV2 d1 d).type = _
    unfold withV2; split
    · exact ht
    · split <;> exact ht
  have h2v : d2.version = d.version := by
    show (withV2 d1 d).version = _
    unfold withV2; split
    · rfl
    · split <;> rfl
  have h2a : d2.addData = d0.addData := by
    show (withV2 d1 d).addData = _
    unfold withV2; split
    · rfl
    · split <;> rfl
  have h2c : d2.comp = d0.comp := by
    show (withV2 d1 d).comp = _
    unfold withV2; split
    · rfl
    · split <;> rfl
  have h2n : d2.tgtNevr = d0.tgtNevr := by
    show (withV2 d1 d).tgtNevr = _
    unfold withV2; split
    · rfl
    · split <;> rfl
  have h2s : d2.srcNevr = d.srcNevr ∧ d2.sequence = d.sequence ∧ d2.tgtMd5 = d.tgtMd5 := by
    show (withV2 d1 d).srcNevr = _ ∧ (withV2 d1 d).sequence = _ ∧ (withV2 d1 d).tgtMd5 = _
    unfold withV2; split
    · exact ⟨rfl, rfl, rfl⟩
    · split <;> exact ⟨rfl, rfl, rfl⟩
  have h2h : d2.tgtHeaderLen = d.tgtHeaderLen ∧ d2.offadj = d.offadj := by
    show (withV2 d1 d).tgtHeaderLen = _ ∧ (withV2 d1 d).offadj = _
    unfold withV2
    split
    · exact ⟨rfl, rfl⟩
    · obtain ⟨o1, o2, _⟩ := hd.old (by omega)
      split <;> exact ⟨hz.1.trans o1.symm, hz.2.trans o2.symm⟩
  have h2o : d2.offadjCount = if d.version = 3 then d.offadjCount else d0.offadjCount := by
    show (withV2 d1 d).offadjCount = _
    unfold withV2
    split
    · rfl
    · split <;> rfl
  have h21 : d.version = 1 → d2.tgtComp = d0.tgtComp ∧ d2.tgtSize = d0.tgtSize ∧ d2.tgtCompParam = d0.tgtCompParam ∧
      d2.tgtCompLevel = d0.tgtCompLevel := by
    intro h
    show (withV2 d1 d).tgtComp = _ ∧ (withV2 d1 d).tgtSize = _ ∧ (withV2 d1 d).tgtCompParam = _ ∧
      (withV2 d1 d).tgtCompLevel = _
    unfold withV2
    rw [if_neg (by omega), if_neg (by omega)]
    exact ⟨rfl, rfl, rfl, rfl⟩
  have h22 : 2 ≤ d.version → d2.tgtSize = d.tgtSize ∧ d2.tgtComp = d.tgtComp ∧
      d2.tgtCompLevel = d.tgtCompLevel ∧ d2.tgtCompParam = d.tgtCompParam := by
    intro h
    show (withV2 d1 d).tgtSize = _ ∧ (withV2 d1 d).tgtComp = _ ∧ (withV2 d1 d).tgtCompLevel = _ ∧ (withV2 d1 d).tgtCompParam = _
    unfold withV2
    split
    · exact ⟨rfl, rfl, rfl, rfl⟩
    · rw [if_pos (by omega)]; exact ⟨rfl, rfl, rfl, rfl⟩
  obtain ⟨data, w4, r4⟩ := rdPart4_write d3 d ptrs hd h2t h2v (h2a.trans hadd) r
  obtain ⟨ie, io, ee, eo, w31, w32, w33, w34, r3⟩ := rdPart3_write d2 d ptrs hd h2t h2h.1
    (writeLen d.version d.extDataLen ++ (writeAdd d ++ (writeLen d.version d.intDataLen ++ (data ++ r))))
  obtain ⟨v2, w2, r2⟩ := rdV2_write d1 d ptrs hd rfl
    (writeBuf d.tgtLeadsig ++ (createBe32 d.payloadFmtOff ++ (createBe32 d.intCount ++
        (createBe32 d.extCount ++ (ie ++ (io ++ (ee ++ (eo ++ 
    (writeLen d.version d.extDataLen ++ (writeAdd d ++ (writeLen d.version d.intDataLen ++ (data ++ r))))))))))))
  have r1 := rdPart1_write d0 d ptrs hd ht
    (v2 ++ (writeBuf d.tgtLeadsig ++ (createBe32 d.payloadFmtOff ++ (createBe32 d.intCount ++
        (createBe32 d.extCount ++ (ie ++ (io ++ (ee ++ (eo ++ 
    (writeLen d.version d.extDataLen ++ (writeAdd d ++ (writeLen d.version d.intDataLen ++ (data ++ r)))))))))))))
  refine ⟨_, d4, by unfold writeStream; rw [w2, Out.bind_ok, w31, Out.bind_ok, w32, Out.bind_ok, w33, Out.bind_ok, w34, Out.bind_ok, w4, Out.bind_ok], ?_, ?_, h2c, h2o, h21, ?_, ?_⟩
  · simp only [List.append_assoc]
    unfold rdRest
    rw [P.bind_run, r1, Out.bind_ok]
    simp only
    rw [P.bind_run, r2, Out.bind_ok]
    simp only
    rw [P.bind_run, r3, Out.bind_ok]
    simp only
    rw [P.bind_run, r4, Out.bind_ok]
    obtain ⟨p1, p2, p3, p4⟩ := hd.data
    obtain ⟨x0, x5, x6⟩ := hd.ext
    show rdChecks d4 r = _
    unfold rdChecks
    have hs : (d.ints.map (·.2)).sum = ptrs.flatten.length := by
      rw [← p2, sum_map_length]
    have c1 : intCheck d.intDataLen 0 d.ints = true :=
      (intCheck_sum _ _ _ (by omega) (by omega)).2 (by omega)
    have c2 : extCheck d.extDataLen 0 d.exts = true :=
      (extCheck_inside _ _ _ (by omega) (by omega) (fun c hc => (hd.exts.2.2.1 c hc).2)).2 ⟨x5, x6⟩
    show (if intCheck d.intDataLen 0 d.ints = true then if extCheck d.extDataLen 0 d.exts = true then pure d4 else _ else _ : P Delta) r = _
    rw [c1, c2]
    rfl
  · exact { type := h2t, version := h2v, srcNevr := h2s.1, tgtNevr := fun h => h2n.trans (hn h),
            sequence := h2s.2.1, md5 := h2s.2.2, v2 := h22, header := h2h.1,
            offadj := ⟨h2h.2, fun h => by rw [if_pos h] at h2o; exact h2o⟩, leadsig := rfl, fmt := rfl,
            ints := ⟨rfl, rfl⟩, exts := ⟨rfl, rfl⟩, extLen := rfl, add := rfl, intLen := rfl,
            intData := ⟨rfl, rfl⟩ }
  · have := hd.md5
    simp only [List.length_append, versionBytes, List.length_cons, List.length_nil]
    omega
  · simp only [List.append_assoc, versionBytes]
    rfl

end Drpm
