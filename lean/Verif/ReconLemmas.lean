import Verif.Recon
import Verif.Diff
/-! Helper lemmas: executing copies against the flat provider. -/

namespace Drpm

/-- What one external copy contributes. -/
def extBytes (useAdd : Bool) (old : Bytes) (off len : Nat) (add : Bytes) : Bytes :=
  if useAdd then List.zipWith (fun b a => b + a) (slice old off len) (add.take len)
  else slice old off len

theorem slice_take (a : List α) (i n m : Nat) (h : m ≤ n) : (slice a i n).take m = slice a i m := by
  simp [slice, List.take_take, Nat.min_eq_left h]

theorem slice_drop (a : List α) (i n m : Nat) : (slice a i n).drop m = slice a (i + m) (n - m) := by
  simp [slice, List.drop_take, List.drop_drop]

theorem zipWith_append_split {f : α → β → γ} (l1 l2 : List α) (m : List β) :
    List.zipWith f (l1 ++ l2) m =
      List.zipWith f l1 (m.take l1.length) ++ List.zipWith f l2 (m.drop l1.length) := by
  induction l1 generalizing m with
  | nil => simp
  | cons x l1 ih =>
    cases m with
    | nil => simp
    | cons y m => simp [ih]

theorem extBytes_split (useAdd : Bool) (old : Bytes) (off n m : Nat) (add : Bytes)
    (h : off + n ≤ old.length) :
    extBytes useAdd old off (n + m) add =
      extBytes useAdd old off n add ++ extBytes useAdd old (off + n) m (add.drop n) := by
  unfold extBytes
  cases useAdd with
  | false => simp [slice_append_slice]
  | true =>
    simp only [if_true]
    rw [← slice_append_slice, zipWith_append_split, slice_length h, List.take_take,
      Nat.min_eq_left (Nat.le_add_right n m), List.drop_take, Nat.add_sub_cancel_left]

/-- The add-block bytes left after a copy of `len` bytes. -/
def addLeft (useAdd : Bool) (add : Bytes) (len : Nat) : Bytes := if useAdd then add.drop len else add

theorem applyAdd_ok (useAdd : Bool) (old add : Bytes) (off n : Nat) (h : off + n ≤ old.length)
    (ha : useAdd = true → n ≤ add.length) :
    applyAdd useAdd (slice old off n) add = .ok (extBytes useAdd old off n add, addLeft useAdd add n) := by
  unfold applyAdd extBytes addLeft
  cases useAdd with
  | false => simp
  | true => simp [slice_length h, ha rfl]

theorem extCopyLoop_flat (old : Bytes) (useAdd : Bool) (fuel len : Nat) (s : ReconSt Unit)
    (hf : len < fuel) (hb : s.extOff + len ≤ old.length) (hsz : old.length < 2^63)
    (ha : useAdd = true → len ≤ s.add.length) :
    ∃ s', extCopyLoop (flatNext old) useAdd fuel len (blockId s.extOff) s = .ok s' ∧
      s'.extOff = s.extOff + len ∧ s'.done = s.done ∧ s'.add = addLeft useAdd s.add len ∧
      s'.out.flatten = s.out.flatten ++ extBytes useAdd old s.extOff len s.add := by
  induction fuel generalizing len s with
  | zero => omega
  | succ fuel ih =>
    unfold extCopyLoop
    split
    · rename_i hpos
      obtain ⟨n, hn⟩ : ∃ n, min (blockSize * (blockId s.extOff + 1) - s.extOff) len = n := ⟨_, rfl⟩
      have hbs : 0 < blockSize * (blockId s.extOff + 1) - s.extOff := by
        unfold blockId blockSize; omega
      have hn1 : 0 < n ∧ n ≤ len := by omega
      have hnext : flatNext old s.blk s.extOff len s.done (blockId s.extOff) =
          .ok (slice old s.extOff n, ()) := by
        unfold flatNext
        simp only [hn]
        rw [if_pos ⟨trivial, by omega⟩]
      rw [hnext, Out.bind_ok]
      simp only
      rw [applyAdd_ok useAdd old s.add s.extOff n (by omega) (fun h => by have := ha h; omega), Out.bind_ok]
      simp only [slice_length (by omega : s.extOff + n ≤ old.length)]
      have e1 : (len + 2^64 - n) % 2^64 = len - n := by omega
      have e2 : (s.extOff + n) % 2^64 = s.extOff + n := by omega
      rw [e1, e2]
      by_cases hend : n = len
      · subst hend
        simp only [Nat.sub_self]
        obtain ⟨fuel', rfl⟩ : ∃ f, fuel = f + 1 := ⟨fuel - 1, by omega⟩
        rw [extCopyLoop, if_neg (by omega)]
        refine ⟨_, rfl, rfl, rfl, rfl, ?_⟩
        simp
      · have hblk : blockId s.extOff + 1 = blockId (s.extOff + n) := by
          unfold blockId blockSize at *; omega
        rw [hblk]
        obtain ⟨s', h1, h2, h3, h4, h5⟩ := ih (len - n)
          ⟨(), s.extOff + n, s.done, addLeft useAdd s.add n, s.out ++ [extBytes useAdd old s.extOff n s.add]⟩
          (by omega) (by simp only; omega)
          (by intro h; have := ha h; simp [addLeft, h]; omega)
        refine ⟨s', h1, ?_, h3, ?_, ?_⟩
        · rw [h2]; simp only; omega
        · rw [h4]; unfold addLeft; split
          · rw [List.drop_drop]; congr 1; omega
          · rfl
        · rw [h5]
          have := extBytes_split useAdd old s.extOff n (len - n) s.add (by omega)
          rw [show n + (len - n) = len by omega] at this
          rw [this]
          unfold addLeft
          cases useAdd <;> simp [extBytes]
    · have : len = 0 := by omega
      subst this
      refine ⟨s, rfl, rfl, rfl, ?_, ?_⟩
      · cases useAdd <;> simp [addLeft]
      · cases useAdd <;> simp [extBytes]

theorem extCopies_append {σ : Type} (next : BlockProvider σ) (useAdd : Bool)
    (a b : List (Nat × Nat)) (s : ReconSt σ) :
    extCopies next useAdd (a ++ b) s = (extCopies next useAdd a s >>= extCopies next useAdd b) := by
  induction a generalizing s with
  | nil => rfl
  | cons x a ih =>
    obtain ⟨w, len⟩ := x
    simp only [List.cons_append, extCopies, ih, bind_assoc]

theorem addS32_nat (off v target : Nat) (h : (off : Int) + s32 v = target) (ht : target < 2^64) :
    addS32 off v = target := by
  unfold addS32 u64OfInt
  rw [h]; omega

theorem s32_u32OfInt (i : Int) (h1 : -2^31 ≤ i) (h2 : i < 2^31) : s32 (u32OfInt i) = i := by
  unfold s32 u32OfInt
  split <;> omega

theorem s32_int32Max : s32 int32Max = 2147483647 := by decide
theorem s32_neg_int32Max : s32 (twosComplement32 int32Max) = -2147483647 := by decide

/-- A zero-length copy only moves the offset. -/
theorem extCopies_jump (old : Bytes) (useAdd : Bool) (w : Nat) (s : ReconSt Unit)
    (rest : List (Nat × Nat)) :
    extCopies (flatNext old) useAdd ((w, 0) :: rest) s =
      extCopies (flatNext old) useAdd rest { s with extOff := addS32 s.extOff w, done := s.done + 1 } := by
  simp [extCopies, extCopyLoop]

/-- Shape of the external copies for one region: zero-length seeks, then the copy itself, and
    executing them emits exactly the region. -/
theorem extCopiesOf_exec (old : Bytes) (useAdd : Bool) (fuel oldOff oldLen offset : Nat)
    (hfuel : (if oldOff ≤ offset then offset - oldOff else oldOff - offset) < fuel)
    (hlen : oldLen < 2^31) (hb : oldOff + oldLen ≤ old.length)
    (hoff : offset < 2^63) (hsz : old.length < 2^63) :
    ∃ cs, extCopiesOf fuel oldOff oldLen offset = .ok (cs, oldOff + oldLen) ∧ 1 ≤ cs.length ∧
      ∀ s : ReconSt Unit, s.extOff = offset → (useAdd = true → oldLen ≤ s.add.length) →
        ∃ s', extCopies (flatNext old) useAdd cs s = .ok s' ∧ s'.extOff = oldOff + oldLen ∧
          s'.add = addLeft useAdd s.add oldLen ∧
          s'.out.flatten = s.out.flatten ++ extBytes useAdd old oldOff oldLen s.add := by
  induction fuel generalizing offset with
  | zero => omega
  | succ fuel ih =>
    unfold extCopiesOf
    by_cases h1 : oldOff > offset ∧ oldOff - offset ≥ 2^31
    · rw [if_pos h1]
      obtain ⟨cs, e, hl, hx⟩ := ih (offset + int32Max)
        (by unfold int32Max; split at hfuel <;> split <;> omega) (by unfold int32Max; omega)
      rw [e, Out.bind_ok]
      refine ⟨_, rfl, by simp, ?_⟩
      intro s hs ha
      rw [extCopies_jump, addS32_nat s.extOff int32Max (offset + int32Max)
        (by rw [s32_int32Max, hs]; unfold int32Max; omega) (by unfold int32Max; omega)]
      exact hx _ rfl ha
    · rw [if_neg h1]
      by_cases h2 : oldOff < offset ∧ offset - oldOff ≥ 2^31
      · rw [if_pos h2]
        obtain ⟨cs, e, hl, hx⟩ := ih (offset - int32Max)
          (by unfold int32Max; split at hfuel <;> split <;> omega) (by unfold int32Max; omega)
        rw [e, Out.bind_ok]
        refine ⟨_, rfl, by simp, ?_⟩
        intro s hs ha
        rw [extCopies_jump, addS32_nat s.extOff (twosComplement32 int32Max) (offset - int32Max)
          (by rw [s32_neg_int32Max, hs]; unfold int32Max; omega) (by unfold int32Max; omega)]
        exact hx _ rfl ha
      · rw [if_neg h2]
        simp only
        rw [if_neg (by omega)]
        refine ⟨_, rfl, by simp, ?_⟩
        intro s hs ha
        have hjump : addS32 s.extOff (u32OfInt ((oldOff : Int) - offset)) = oldOff := by
          apply addS32_nat
          · rw [s32_u32OfInt _ (by omega) (by omega), hs]; omega
          · omega
        simp only [extCopies, hjump]
        obtain ⟨s', e1, e2, e3, e4, e5⟩ := extCopyLoop_flat old useAdd (oldLen + 1) oldLen
          { s with extOff := oldOff } (by omega) hb hsz ha
        simp only at e1 e2 e3 e4 e5
        rw [e1, Out.bind_ok]
        exact ⟨_, rfl, e2, e4, e5⟩

theorem intCopiesOf_ok (fuel pending newLen : Nat) (hf : newLen < fuel) (hn : 0 < newLen) :
    ∃ is : List (Nat × Nat), intCopiesOf fuel pending newLen = .ok is ∧ 
      (∃ l rest, is = (pending, l) :: rest ∧ ∀ x ∈ rest, x.1 = 0) ∧
      (∀ x ∈ is, 0 < x.2 ∧ x.2 < 2^31) ∧ (is.map Prod.snd).sum = newLen := by
  induction fuel generalizing pending newLen with
  | zero => omega
  | succ fuel ih =>
    unfold intCopiesOf
    split
    · rename_i h
      obtain ⟨is, e, ⟨l, rest, hr, hz⟩, hp, hs⟩ := ih 0 (newLen - int32Max) (by unfold int32Max; omega)
        (by unfold int32Max; omega)
      rw [e, Out.bind_ok]
      refine ⟨_, rfl, ⟨_, _, rfl, ?_⟩, ?_, ?_⟩
      · intro x hx; rw [hr] at hx; simp only [List.mem_cons] at hx
        rcases hx with rfl | hx
        · rfl
        · exact hz x hx
      · intro x hx; simp only [List.mem_cons] at hx
        rcases hx with rfl | hx
        · simp [int32Max]
        · exact hp x hx
      · simp only [List.map_cons, List.sum_cons, hs]; unfold int32Max at *; omega
    · exact ⟨_, rfl, ⟨_, _, rfl, nofun⟩, by intro x hx; simp at hx; subst hx; simp only; omega, by simp⟩

end Drpm

namespace Drpm

/-- The regions recorded by the diff describe `new` from position `p` on. -/
def RegionsOK (old new : Bytes) (addblk : Bool) : List DiffCopy → Bytes → Nat → Prop
  | [], add, p => p = new.length ∧ add = []
  | c :: cs, add, p =>
    c.newOff = p + c.oldLen ∧ c.oldOff + c.oldLen ≤ old.length ∧ c.newOff + c.newLen ≤ new.length ∧
    ∃ rest, (if addblk then
        add = List.zipWith (fun n o => n - o) (slice new p c.oldLen) (slice old c.oldOff c.oldLen) ++ rest
      else add = rest ∧ slice old c.oldOff c.oldLen = slice new p c.oldLen) ∧
      RegionsOK old new addblk cs rest (c.newOff + c.newLen)

theorem sub_add_bytes (a b : Bytes) (h : a.length = b.length) :
    List.zipWith (fun x y => x + y) b (List.zipWith (fun n o => n - o) a b) = a := by
  induction a generalizing b with
  | nil => simp
  | cons x a ih =>
    cases b with
    | nil => simp at h
    | cons y b =>
      simp only [List.zipWith_cons_cons, List.cons.injEq]
      exact ⟨by rw [UInt8.add_comm, UInt8.sub_add_cancel], ih b (by simpa using h)⟩

theorem intDataLoop_skip (new : Bytes) (ints : List (Nat × Nat)) (c : DiffCopy) (cs : List DiffCopy)
    (off : Nat) (h : c.newLen = 0) :
    intDataLoop new ints (c :: cs) off 0 = intDataLoop new ints cs off 0 := by
  induction ints generalizing off with
  | nil => rfl
  | cons x ints ih =>
    obtain ⟨a, todo⟩ := x
    unfold intDataLoop
    by_cases ht : todo > 0
    · simp only [ht, true_and, if_true, nextRegion, h]
    · have : todo = 0 := by omega
      subst this
      simp only [Nat.lt_irrefl, gt_iff_lt, false_and, if_false, Out.bind_ok]
      have e : (0 + 2^64 - 0) % 2^64 = 0 := by decide
      rw [e, ih]

theorem intDataLoop_region (new : Bytes) (is ints : List (Nat × Nat)) (cs : List DiffCopy)
    (off left : Nat) (hp : ∀ x ∈ is, 0 < x.2) (hs : (is.map Prod.snd).sum = left)
    (hb : off + left ≤ new.length) (hl : left < 2^63) (data : List Bytes)
    (hd : intDataLoop new ints cs (off + left) 0 = .ok data) :
    ∃ pieces : List Bytes, intDataLoop new (is ++ ints) cs off left = .ok (pieces ++ data) ∧
      pieces.flatten = slice new off left ∧ pieces.map List.length = is.map Prod.snd := by
  induction is generalizing off left with
  | nil =>
    simp at hs; subst hs
    exact ⟨[], by simpa using hd, by simp, rfl⟩
  | cons x is ih =>
    obtain ⟨a, todo⟩ := x
    have h0 := hp (a, todo) (by simp)
    simp only [List.map_cons, List.sum_cons] at hs
    simp only at h0
    obtain ⟨pieces, e, hf, hm⟩ := ih (off + todo) (left - todo) (fun x hx => hp x (by simp [hx]))
      (by omega) (by omega) (by omega) (by rw [show off + todo + (left - todo) = off + left by omega]; exact hd)
    refine ⟨slice new off todo :: pieces, ?_, ?_, ?_⟩
    · simp only [List.cons_append]
      unfold intDataLoop
      rw [if_neg (by omega), Out.bind_ok]
      simp only
      rw [rdBlk_ok (by omega), Out.bind_ok]
      have : (left + 2^64 - todo) % 2^64 = left - todo := by omega
      rw [this, e, Out.bind_ok]
    · simp only [List.flatten_cons, hf]
      rw [slice_append_slice]; congr 1; omega
    · simp [hm, slice_length (by omega : off + todo ≤ new.length)]

/-- Internal copies that need no external copy only consume internal data. -/
theorem reconLoop_ints {σ : Type} (next : BlockProvider σ) (useAdd : Bool) (is : List (Nat × Nat))
    (ints ext : List (Nat × Nat)) (pieces : List Bytes) (data : Bytes) (s : ReconSt σ)
    (hz : ∀ x ∈ is, x.1 = 0) (hm : pieces.map List.length = is.map Prod.snd) :
    reconLoop next useAdd (is ++ ints) ext (pieces.flatten ++ data) s =
      reconLoop next useAdd ints ext data { s with out := s.out ++ pieces } := by
  induction is generalizing pieces s with
  | nil =>
    simp at hm; subst hm; simp
  | cons x is ih =>
    obtain ⟨a, l⟩ := x
    have h0 : a = 0 := hz (a, l) (by simp)
    subst h0
    cases pieces with
    | nil => simp at hm
    | cons d pieces =>
      simp only [List.map_cons, List.cons.injEq] at hm
      simp only [List.cons_append, List.flatten_cons, List.append_assoc]
      rw [reconLoop, if_neg (by omega)]
      simp only [List.take_zero, extCopies, Out.bind_ok, List.drop_zero]
      rw [rdBlk_ok (by simp; omega), Out.bind_ok]
      have e1 : slice (d ++ (pieces.flatten ++ data)) 0 l = d := by
        simp [slice, ← hm.1]
      have e2 : (d ++ (pieces.flatten ++ data)).drop l = pieces.flatten ++ data := by
        rw [← hm.1, List.drop_left]
      rw [e1, e2, ih pieces _ (fun x hx => hz x (by simp [hx])) hm.2]
      simp

theorem ext_step (old : Bytes) (useAdd : Bool) (c : DiffCopy) (offset : Nat)
    (hlen : c.oldLen < 2^31) (hb : c.oldOff + c.oldLen ≤ old.length) (hoff : offset ≤ old.length)
    (hsz : old.length < 2^63) :
    ∃ E off', extStep c offset = .ok (E, off') ∧ off' ≤ old.length ∧
      ∀ s : ReconSt Unit, s.extOff = offset → (useAdd = true → c.oldLen ≤ s.add.length) →
        ∃ s', extCopies (flatNext old) useAdd E s = .ok s' ∧ s'.extOff = off' ∧
          s'.add = addLeft useAdd s.add c.oldLen ∧
          s'.out.flatten = s.out.flatten ++ extBytes useAdd old c.oldOff c.oldLen s.add := by
  unfold extStep
  by_cases h : c.oldLen ≠ 0
  · simp only [if_pos h]
    obtain ⟨cs, e, _, hx⟩ := extCopiesOf_exec old useAdd (c.oldOff + c.oldLen + offset + 1) c.oldOff
      c.oldLen offset (by split <;> omega) hlen hb (by omega) hsz
    exact ⟨cs, _, e, hb, hx⟩
  · simp only [if_neg h]
    have h0 : c.oldLen = 0 := by omega
    refine ⟨[], offset, rfl, hoff, ?_⟩
    intro s hs _
    refine ⟨s, rfl, hs, ?_, ?_⟩
    · rw [h0]; cases useAdd <;> simp [addLeft]
    · rw [h0]; cases useAdd <;> simp [extBytes]

theorem region_bytes (old new : Bytes) (addblk : Bool) (c : DiffCopy) (add rest : Bytes) (p : Nat)
    (hb : c.oldOff + c.oldLen ≤ old.length) (hn : p + c.oldLen ≤ new.length)
    (h : if addblk then
        add = List.zipWith (fun n o => n - o) (slice new p c.oldLen) (slice old c.oldOff c.oldLen) ++ rest
      else add = rest ∧ slice old c.oldOff c.oldLen = slice new p c.oldLen) :
    extBytes addblk old c.oldOff c.oldLen add = slice new p c.oldLen ∧
    (addblk = true → c.oldLen ≤ add.length ∧ addLeft addblk add c.oldLen = rest) := by
  cases addblk with
  | false =>
    simp only [Bool.false_eq_true, if_false] at h
    exact ⟨by simp [extBytes, h.2], nofun⟩
  | true =>
    simp only [if_true] at h
    have hl1 := slice_length hn
    have hl2 := slice_length hb
    have hz : (List.zipWith (fun n o => n - o) (slice new p c.oldLen)
        (slice old c.oldOff c.oldLen)).length = c.oldLen := by simp [hl1, hl2]
    refine ⟨?_, fun _ => ⟨?_, ?_⟩⟩
    · simp only [extBytes, if_true, h]
      rw [List.take_left' hz, sub_add_bytes _ _ (by rw [hl1, hl2])]
    · rw [h]; simp [hl1, hl2]
    · simp only [addLeft, if_true, h]
      rw [List.drop_left' hz]

theorem drop_eq_slice_append (a : List α) (p n : Nat) : a.drop p = slice a p n ++ a.drop (p + n) := by
  simp only [slice]
  rw [← List.drop_drop, List.take_append_drop]

/-- The copy lists and internal data computed from regions that describe `new` reproduce `new`. -/
theorem recon_regions (old new : Bytes) (addblk : Bool) (hold : old.length < 2^63)
    (hnew : new.length < 2^63) (cs : List DiffCopy) (hlen : ∀ c ∈ cs, c.oldLen < 2^31)
    (add : Bytes) (p offset : Nat) (P : List (Nat × Nat)) (hoff : offset ≤ old.length)
    (hR : RegionsOK old new addblk cs add p) :
    ∃ exts ints data, copiesLoop cs offset P.length = .ok (exts, ints) ∧
      (∀ o ≤ new.length, intDataLoop new ints cs o 0 = .ok data) ∧
      ∀ s s1 : ReconSt Unit, extCopies (flatNext old) addblk P s = .ok s1 → s1.extOff = offset →
        (addblk = true → s1.add = add) →
        ∃ s', reconLoop (flatNext old) addblk ints (P ++ exts) data.flatten s = .ok s' ∧
          s'.out.flatten = s1.out.flatten ++ new.drop p ∧ (addblk = true → s'.add = []) := by
  induction cs generalizing add p offset P with
  | nil =>
    obtain ⟨rfl, rfl⟩ := hR
    simp only [copiesLoop]
    by_cases hP : P.length > 0
    · refine ⟨[], [(P.length, 0)], [[]], by rw [if_pos hP], ?_, ?_⟩
      · intro o ho
        simp [intDataLoop, rdBlk, ho]
      · intro s s1 h1 _ hadd
        refine ⟨{ s1 with out := s1.out ++ [[]] }, ?_, by simp, hadd⟩
        simp [reconLoop, h1, rdBlk]
    · have : P = [] := List.eq_nil_of_length_eq_zero (by omega)
      subst this
      refine ⟨[], [], [], by simp, by simp [intDataLoop], ?_⟩
      intro s s1 h1 _ hadd
      simp [extCopies] at h1
      subst h1
      exact ⟨s, by simp [reconLoop], by simp, hadd⟩
  | cons c cs ih =>
    obtain ⟨hno, hob, hnb, rest, hadd, hR'⟩ := hR
    obtain ⟨E, off', hE, hoff', hEx⟩ := ext_step old addblk c offset (hlen c (by simp)) hob hoff hold
    obtain ⟨hbytes, haddlen⟩ := region_bytes old new addblk c add rest p hob (by omega) hadd
    have hlen' : ∀ c ∈ cs, c.oldLen < 2^31 := fun x hx => hlen x (by simp [hx])
    -- executing P then E
    have hPE : ∀ s s1 : ReconSt Unit, extCopies (flatNext old) addblk P s = .ok s1 →
        s1.extOff = offset → (addblk = true → s1.add = add) →
        ∃ s2, extCopies (flatNext old) addblk (P ++ E) s = .ok s2 ∧ s2.extOff = off' ∧
          (addblk = true → s2.add = rest) ∧
          s2.out.flatten = s1.out.flatten ++ slice new p c.oldLen := by
      intro s s1 h1 h2 h3
      obtain ⟨s2, g1, g2, g3, g4⟩ := hEx s1 h2 (fun h => by rw [h3 h]; exact (haddlen h).1)
      refine ⟨s2, by rw [extCopies_append, h1, Out.bind_ok, g1], g2, ?_, ?_⟩
      · intro h; rw [g3, h3 h]; exact (haddlen h).2
      · rw [g4]; congr 1
        cases addblk with
        | false => rw [← hbytes]; rfl
        | true => rw [h3 rfl]; exact hbytes
    have hdrop : new.drop p = slice new p c.oldLen ++ (slice new c.newOff c.newLen ++
        new.drop (c.newOff + c.newLen)) := by
      rw [← drop_eq_slice_append, hno, ← drop_eq_slice_append]
    by_cases hn0 : c.newLen = 0
    · obtain ⟨exts', ints', data', e1, e2, e3⟩ :=
        ih hlen' rest (c.newOff + c.newLen) off' (P ++ E) hoff' hR'
      refine ⟨E ++ exts', ints', data', ?_, ?_, ?_⟩
      · unfold copiesLoop
        simp only [hE, Out.bind_ok, intStep, hn0, ne_eq, not_true_eq_false, if_false]
        rw [List.length_append] at e1
        rw [e1]; simp
      · intro o ho; rw [intDataLoop_skip _ _ _ _ _ hn0]; exact e2 o ho
      · intro s s1 h1 h2 h3
        obtain ⟨s2, g1, g2, g3, g4⟩ := hPE s s1 h1 h2 h3
        obtain ⟨s', k1, k2, k3⟩ := e3 s s2 g1 g2 g3
        refine ⟨s', by rw [← List.append_assoc]; exact k1, ?_, k3⟩
        rw [k2, g4, hdrop, hn0]; simp
    · obtain ⟨exts', ints', data', e1, e2, e3⟩ :=
        ih hlen' rest (c.newOff + c.newLen) off' [] hoff' hR'
      obtain ⟨is, i1, ⟨l, ir, i2, iz⟩, i3, i4⟩ :=
        intCopiesOf_ok (c.newLen + 1) (P.length + E.length) c.newLen (by omega) (by omega)
      obtain ⟨pieces, d1, d2, d3⟩ := intDataLoop_region new is ints' cs c.newOff c.newLen
        (fun x hx => (i3 x hx).1) i4 hnb (by omega) data' (e2 _ hnb)
      refine ⟨E ++ exts', is ++ ints', pieces ++ data', ?_, ?_, ?_⟩
      · unfold copiesLoop
        simp only [hE, Out.bind_ok, intStep, if_pos hn0, i1]
        simp only [List.length_nil] at e1
        rw [e1]; simp
      · intro o ho
        have hfirst : 0 < l := (i3 (P.length + E.length, l) (by simp [i2])).1
        have : intDataLoop new (is ++ ints') (c :: cs) o 0 =
            intDataLoop new (is ++ ints') cs c.newOff c.newLen := by
          rw [i2]
          simp only [List.cons_append]
          rw [intDataLoop, intDataLoop]
          rw [if_pos ⟨hfirst, rfl⟩, if_neg (by omega)]
          simp [nextRegion, hn0]
        rw [this]; exact d1
      · intro s s1 h1 h2 h3
        obtain ⟨s2, g1, g2, g3, g4⟩ := hPE s s1 h1 h2 h3
        subst i2
        cases pieces with
        | nil => simp at d3
        | cons d pieces =>
        simp only [List.map_cons, List.cons.injEq] at d3
        obtain ⟨s', k1, k2, k3⟩ := e3 { s2 with out := s2.out ++ [d] ++ pieces }
          { s2 with out := s2.out ++ [d] ++ pieces } rfl g2 g3
        refine ⟨s', ?_, ?_, k3⟩
        · simp only [List.cons_append, List.flatten_cons, List.flatten_append]
          rw [reconLoop, if_neg (by simp)]
          have t1 : (P ++ (E ++ exts')).take (P.length + E.length) = P ++ E := by
            rw [← List.append_assoc]; exact List.take_left' (by simp)
          have t2 : (P ++ (E ++ exts')).drop (P.length + E.length) = exts' := by
            rw [← List.append_assoc]; exact List.drop_left' (by simp)
          rw [t1, t2, g1, Out.bind_ok, rdBlk_ok (by simp; omega), Out.bind_ok]
          have u1 : slice (d ++ (pieces.flatten ++ data'.flatten)) 0 l = d := by simp [slice, ← d3.1]
          have u2 : (d ++ (pieces.flatten ++ data'.flatten)).drop l = pieces.flatten ++ data'.flatten := by
            rw [← d3.1, List.drop_left]
          rw [u1, u2, reconLoop_ints _ _ ir ints' exts' pieces data'.flatten _ iz d3.2]
          simpa using k1
        · rw [k2]
          simp only [List.flatten_append, List.flatten_cons, List.flatten_nil, List.append_nil, g4]
          simp only [List.flatten_cons] at d2
          rw [hdrop, ← d2]; simp

end Drpm
