import Verif.DiffLemmas
/-! Helper lemmas: `hash_create` and `hash_search` stay in bounds, terminate and report real
matches; the rolling hash. -/

namespace Drpm

/-- Every used table slot refers to a complete block of the old payload. -/
def HashOK (old : Bytes) (h : Hash) : Prop :=
  0 < h.htLen ∧ ∀ k, h.table k = 0 ∨ (h.table k - 1 + 16 ≤ old.length ∧ 1 ≤ h.table k)

theorem HashOK.get {old : Bytes} {h : Hash} (hk : HashOK old h) {k : Nat} (hlt : k < h.htLen) :
    ∃ e, h.get k = .ok e ∧ (e = 0 ∨ (e - 1 + 16 ≤ old.length ∧ 1 ≤ e)) :=
  ⟨_, by rw [Hash.get, if_pos hlt], hk.2 k⟩

theorem next_lt {h : Hash} (h0 : 0 < h.htLen) {k : Nat} (hlt : k < h.htLen) : h.next k < h.htLen := by
  unfold Hash.next; split <;> omega

theorem hashTableLen_pos (n : Nat) : 0 < hashTableLen n := by
  unfold hashTableLen
  simp only
  cases hf : hashPrimes.find? (fun p => decide (4 * ((n + hsize - 1) >>> 4) < p)) with
  | none => simp
  | some p =>
    have := List.mem_of_find?_eq_some hf
    have hall : ∀ p ∈ hashPrimes, 0 < p := by decide
    exact hall p this

/-- Table while it is being filled: entries lie before `off`. -/
def FillOK (h : Hash) (off : Nat) : Prop :=
  0 < h.htLen ∧ ∀ k, h.table k = 0 ∨ (h.table k - 1 + 16 ≤ off ∧ 1 ≤ h.table k)

theorem FillOK.set {h : Hash} {off : Nat} (hk : FillOK h off) {k : Nat} (hlt : k < h.htLen) :
    ∃ h', h.set k (off + 1) = .ok h' ∧ FillOK h' (off + 16) := by
  refine ⟨⟨fun j => if j = k then off + 1 else h.table j, h.htLen⟩, by rw [Hash.set, if_pos hlt],
    hk.1, fun j => ?_⟩
  simp only
  split
  · right; omega
  · rcases hk.2 j with h | h
    · exact Or.inl h
    · right; omega

theorem FillOK.mono {h : Hash} {a b : Nat} (hk : FillOK h a) (hab : a ≤ b) : FillOK h b :=
  ⟨hk.1, fun k => (hk.2 k).imp id fun h => ⟨by omega, h.2⟩⟩

theorem hashInsert_ok (old : Bytes) (h : Hash) (off : Nat) (hk : FillOK h off)
    (hb : off + 16 ≤ old.length) : ∃ h', hashInsert old h off = .ok h' ∧ FillOK h' (off + 16) := by
  unfold hashInsert
  rw [rdBlk_ok (by simpa [hsize] using hb)]
  simp only [Out.bind_ok]
  have hkey : (buzhash (slice old off hsize)).toNat % h.htLen < h.htLen := Nat.mod_lt _ hk.1
  generalize (buzhash (slice old off hsize)).toNat % h.htLen = key at hkey ⊢
  have hnext := next_lt hk.1 hkey
  rw [show h.get key = .ok (h.table key) by rw [Hash.get, if_pos hkey],
    show h.get (h.next key) = .ok (h.table (h.next key)) by rw [Hash.get, if_pos hnext]]
  simp only [Out.bind_ok]
  split
  · rename_i he
    split
    · exact ⟨h, rfl, hk.mono (by omega)⟩
    · have hb2 : h.table key + hsize ≤ old.length := by
        rcases hk.2 key with h' | h'
        · exact absurd h' he
        · simp only [hsize]; omega
      rw [rdBlk_ok hb2, Out.bind_ok]
      split
      · exact ⟨h, rfl, hk.mono (by omega)⟩
      · exact hk.set hnext
  · exact hk.set hkey

theorem hashFill_ok (old : Bytes) (n off : Nat) (h : Hash) (hk : FillOK h off)
    (hb : off + n * 16 ≤ old.length) :
    ∃ h', hashFill old n off h = .ok h' ∧ FillOK h' (off + n * 16) := by
  induction n generalizing off h with
  | zero => exact ⟨h, rfl, hk.mono (by omega)⟩
  | succ n ih =>
    obtain ⟨h1, e1, k1⟩ := hashInsert_ok old h off hk (by omega)
    obtain ⟨h2, e2, k2⟩ := ih (off + 16) h1 k1 (by omega)
    refine ⟨h2, ?_, k2.mono (by omega)⟩
    unfold hashFill
    rw [e1, Out.bind_ok]
    exact e2

theorem hashCreate_ok (old : Bytes) : ∃ h, hashCreate old = .ok h ∧ HashOK old h := by
  obtain ⟨h, e, k⟩ := hashFill_ok old (old.length / hsize) 0 ⟨fun _ => 0, hashTableLen old.length⟩
    ⟨hashTableLen_pos _, fun _ => Or.inl rfl⟩ (by simp only [hsize]; omega)
  refine ⟨h, e, k.1, fun j => (k.2 j).imp id fun h => ⟨?_, h.2⟩⟩
  have := h.1
  simp only [hsize] at this
  omega

/-- Two payloads agree on `n` bytes at `o` and `m`, inside both. -/
def Agree (old new : Bytes) (o m n : Nat) : Prop :=
  o + n ≤ old.length ∧ m + n ≤ new.length ∧ slice old o n = slice new m n

theorem Agree.append {old new : Bytes} {o m a b : Nat} (h1 : Agree old new o m a)
    (h2 : Agree old new (o + a) (m + a) b) : Agree old new o m (a + b) := by
  obtain ⟨a1, a2, a3⟩ := h1
  obtain ⟨b1, b2, b3⟩ := h2
  exact ⟨by omega, by omega, by rw [← slice_append_slice, ← slice_append_slice, a3, b3]⟩

theorem Agree.zero {old new : Bytes} {o m : Nat} (h1 : o ≤ old.length) (h2 : m ≤ new.length) :
    Agree old new o m 0 := ⟨by omega, by omega, by simp⟩

theorem Agree.one {old new : Bytes} {o m : Nat} (h1 : o < old.length) (h2 : m < new.length)
    (h : old[o] = new[m]) : Agree old new o m 1 :=
  ⟨by omega, by omega, by
    simp [slice, List.take_one, List.head?_drop, List.getElem?_eq_getElem h1,
      List.getElem?_eq_getElem h2, h]⟩

theorem matchLen_go_ok (old new : Bytes) (o n k i : Nat) (ho : o + i + k ≤ old.length)
    (hn : n + i + k ≤ new.length) (ha : Agree old new o n i) :
    ∃ l, matchLen.go old o new n k i = .ok l ∧ Agree old new o n l := by
  induction k generalizing i with
  | zero => exact ⟨i, rfl, ha⟩
  | succ k ih =>
    unfold matchLen.go
    rw [rd_ok (by omega : o + i < old.length), rd_ok (by omega : n + i < new.length)]
    simp only [Out.bind_ok]
    split
    · exact ⟨i, rfl, ha⟩
    · rename_i he
      exact ih (i + 1) (by omega) (by omega)
        (ha.append (Agree.one (by omega) (by omega) (by simpa using he)))

theorem matchLen_ok (old new : Bytes) (o n : Nat) (ho : o ≤ old.length) (hn : n ≤ new.length) :
    ∃ l, matchLen old o (old.length - o) new n (new.length - n) = .ok l ∧ Agree old new o n l :=
  matchLen_go_ok old new o n _ 0 (by omega) (by omega) (Agree.zero ho hn)

theorem candidate_ok (h : Hash) (old new : Bytes) (scan : Nat) (pk : Word) (hk : HashOK old h)
    (hs : scan + 16 ≤ new.length) :
    ∃ r, candidate h old new scan pk = .ok r ∧ ∀ pos, r = some pos → Agree old new pos scan 16 := by
  unfold candidate
  have hkey : pk.toNat % h.htLen < h.htLen := Nat.mod_lt _ hk.1
  simp only
  generalize pk.toNat % h.htLen = key at hkey ⊢
  obtain ⟨e, g1, g2⟩ := hk.get hkey
  obtain ⟨e2, k1, k2⟩ := hk.get (k := if key + 1 = h.htLen then 0 else key + 1) (by split <;> omega)
  rw [g1, Out.bind_ok]
  split
  · exact ⟨none, rfl, nofun⟩
  · rename_i he
    have he' := g2.resolve_left he
    rw [rdBlk_ok (by simp only [hsize]; omega), rdBlk_ok (by simpa [hsize] using hs)]
    simp only [Out.bind_ok]
    split
    · rename_i heq
      refine ⟨_, rfl, fun pos hp => ?_⟩
      cases hp
      exact ⟨he'.1, hs, heq⟩
    · rw [k1, Out.bind_ok]
      split
      · exact ⟨none, rfl, nofun⟩
      · rename_i he2
        have he2' := k2.resolve_left he2
        rw [rdBlk_ok (by simp only [hsize]; omega), Out.bind_ok]
        split
        · rename_i heq
          refine ⟨_, rfl, fun pos hp => ?_⟩
          cases hp
          exact ⟨he2'.1, hs, heq⟩
        · exact ⟨none, rfl, nofun⟩

theorem farEntry_ok (h : Hash) (old new : Bytes) (scan : Nat) (hk : HashOK old h)
    (hs : scan + 64 ≤ new.length) :
    ∃ e, farEntry h old new scan = .ok e ∧ (e = 0 ∨ (e - 1 + 16 ≤ old.length ∧ 1 ≤ e)) := by
  unfold farEntry
  rw [rdBlk_ok (by simp only [hsize]; omega)]
  simp only [Out.bind_ok]
  have hkey : (buzhash (slice new (scan + 3 * hsize) hsize)).toNat % h.htLen < h.htLen := Nat.mod_lt _ hk.1
  generalize (buzhash (slice new (scan + 3 * hsize) hsize)).toNat % h.htLen = key at hkey ⊢
  obtain ⟨e, g1, g2⟩ := hk.get hkey
  rw [g1, Out.bind_ok]
  split
  · rename_i he
    have he' := g2.resolve_left he
    rw [rdBlk_ok (by simp only [hsize]; omega), Out.bind_ok]
    split
    · exact hk.get (next_lt hk.1 hkey)
    · exact ⟨e, rfl, g2⟩
  · exact ⟨e, rfl, g2⟩

theorem bestMatch_ok (h : Hash) (old new : Bytes) (scan pos : Nat) (hk : HashOK old h)
    (ha : Agree old new pos scan 16) :
    ∃ p l, bestMatch h old new scan pos = .ok (p, l) ∧ 16 ≤ l ∧ Agree old new p scan l := by
  unfold bestMatch
  obtain ⟨a1, a2, a3⟩ := ha
  obtain ⟨l, e, hl⟩ := matchLen_ok old new (pos + hsize) (scan + hsize)
    (by simp only [hsize]; omega) (by simp only [hsize]; omega)
  rw [Nat.sub_sub, Nat.sub_sub, e]
  simp only [Out.bind_ok]
  have hbase : Agree old new pos scan (l + hsize) := by
    rw [Nat.add_comm]
    exact Agree.append ⟨a1, a2, a3⟩ hl
  have hlen : 16 ≤ l + hsize := by simp only [hsize]; omega
  split
  · rename_i hfar
    obtain ⟨f, f1, f2⟩ := farEntry_ok h old new scan hk (by simp only [hsize] at hfar; omega)
    rw [f1, Out.bind_ok]
    split
    · rename_i hgt
      split
      · have hfb := f2.resolve_left (by simp only [hsize] at hgt; omega)
        obtain ⟨l2, e2, hl2⟩ := matchLen_ok old new (f - (1 + 3 * hsize)) scan
          (by simp only [hsize] at *; omega) (by omega)
        rw [e2, Out.bind_ok]
        split
        · exact ⟨_, _, rfl, by omega, hl2⟩
        · exact ⟨_, _, rfl, hlen, hbase⟩
      · exact ⟨_, _, rfl, hlen, hbase⟩
    · exact ⟨_, _, rfl, hlen, hbase⟩
  · exact ⟨_, _, rfl, hlen, hbase⟩

theorem backExt_ok (old new : Bytes) (i scan pos len : Nat) (ha : Agree old new pos scan len) :
    ∃ s p l, backExt old new i scan pos len = .ok (s, p, l) ∧ Agree old new p s l ∧ len ≤ l ∧
      s + l = scan + len ∧ scan ≤ s + i := by
  induction i generalizing scan pos len with
  | zero => exact ⟨_, _, _, rfl, ha, by omega, by omega, by omega⟩
  | succ i ih =>
    unfold backExt
    split
    · rename_i hg
      have h1 := ha.1
      have h2 := ha.2.1
      rw [rd_ok (by omega : pos - 1 < old.length), rd_ok (by omega : scan - 1 < new.length)]
      simp only [Out.bind_ok]
      split
      · rename_i heq
        have hone : Agree old new (pos - 1) (scan - 1) 1 := Agree.one (by omega) (by omega) heq
        have := hone.append (b := len) (by
          rw [show pos - 1 + 1 = pos by omega, show scan - 1 + 1 = scan by omega]; exact ha)
        rw [Nat.add_comm 1 len] at this
        obtain ⟨s, p, l, e, h3, h4, h5, h6⟩ := ih (scan - 1) (pos - 1) (len + 1) this
        exact ⟨s, p, l, e, h3, by omega, by omega, by omega⟩
      · exact ⟨_, _, _, rfl, ha, by omega, by omega, by omega⟩
    · exact ⟨_, _, _, rfl, ha, by omega, by omega, by omega⟩

theorem predicted_ok (old new : Bytes) (lastOff m : Nat) (hm : m < new.length) :
    ∃ b, predicted old new lastOff m = .ok b := by
  unfold predicted
  split
  · rename_i h
    rw [rd_ok h, rd_ok hm]
    exact ⟨_, rfl⟩
  · exact ⟨_, rfl⟩

theorem scoreLoop_ok (old new : Bytes) (lastOff n m sc : Nat) (hm : m + n ≤ new.length) :
    ∃ r, scoreLoop old new lastOff n m sc = .ok r := by
  induction n generalizing m sc with
  | zero => exact ⟨_, rfl⟩
  | succ n ih =>
    unfold scoreLoop
    obtain ⟨b, e⟩ := predicted_ok old new lastOff m (by omega)
    rw [e, Out.bind_ok]
    exact ih _ _ (by omega)

theorem rescore_ok (old new : Bytes) (lastOff : Nat) (s : SearchSt) (scan len : Nat)
    (hm : scan + len ≤ new.length) :
    ∃ r, rescore old new lastOff s scan len = .ok r := by
  unfold rescore
  split
  · obtain ⟨r, e⟩ := scoreLoop_ok old new lastOff len scan 0 hm
    rw [e]
    exact ⟨_, rfl⟩
  · rename_i h
    simp only [not_or, Decidable.not_not] at h
    obtain ⟨b, e⟩ := predicted_ok old new lastOff s.scoreStart (by omega)
    rw [e, Out.bind_ok]
    obtain ⟨r, e⟩ := scoreLoop_ok old new lastOff (len - (s.scoreNum - 1))
      (s.scoreStart + 1 + (s.scoreNum - 1)) (if b then (s.score + 2^64 - 1) % 2^64 else s.score)
      (by omega)
    simp only at e ⊢
    rw [e]
    exact ⟨_, rfl⟩

theorem rehash_ok (new : Bytes) (scan : Nat) (pk : Word) :
    ∃ w, rehash new scan pk = .ok w ∧
      (scan + 16 < new.length → w = buzhash (slice new scan 16)) := by
  unfold rehash
  split
  · rename_i h
    rw [rdBlk_ok (by omega), Out.bind_ok]
    exact ⟨_, rfl, fun _ => rfl⟩
  · rename_i h
    exact ⟨_, rfl, fun h' => absurd h' (by simpa [hsize] using h)⟩

/-- Invariant of the search loop. `s0` is the position where the search started. -/
structure SearchInv (old new : Bytes) (s0 : Nat) (s : SearchSt) : Prop where
  start : s0 ≤ s.scanStart
  scan : s.scanStart ≤ s.scan
  le : s.scan ≤ new.length
  last : 0 < s.lastLen → s.scanStart ≤ s.lastScan ∧ s.lastScan ≤ s.scan ∧
    Agree old new s.lastPos s.lastScan s.lastLen
  roll : s.scan + 16 < new.length → s.prekey = buzhash (slice new s.scan 16)

def searchMeasure (n : Nat) (s : SearchSt) : Nat := (n + 1 - s.scanStart) * (n + 2) + (n + 1 - s.scan)

/-- What one iteration may do. -/
def ResOK (old new : Bytes) (s0 : Nat) (s : SearchSt) : SearchRes → Prop
  | .cont s' => SearchInv old new s0 s' ∧ searchMeasure new.length s' < searchMeasure new.length s
  | .done scan pos len => s0 ≤ scan ∧ (scan + 16 ≥ new.length ∨ (32 ≤ len ∧ Agree old new pos scan len))

theorem measure_start {n : Nat} {s s' : SearchSt} (h1 : s.scanStart < s'.scanStart)
    (h2 : s'.scanStart ≤ n) : searchMeasure n s' < searchMeasure n s := by
  unfold searchMeasure
  obtain ⟨a, ha⟩ : ∃ a, n + 1 - s'.scanStart = a := ⟨_, rfl⟩
  obtain ⟨b, hb⟩ : ∃ b, n + 1 - s.scanStart = a + 1 + b := ⟨n - s.scanStart - a, by omega⟩
  rw [ha, hb, Nat.add_mul, Nat.add_mul]
  have := Nat.zero_le (b * (n + 2))
  omega

theorem gotIt_ok (old new : Bytes) (lastOff s0 : Nat) (s : SearchSt) (hi : SearchInv old new s0 s)
    (hl : 32 ≤ s.lastLen) :
    ∃ r, gotIt old new lastOff s = .ok r ∧ ResOK old new s0 s r := by
  obtain ⟨h1, h2, ha⟩ := hi.last (by omega)
  have hb := ha.2.1
  have hst := hi.start
  unfold gotIt
  split
  · obtain ⟨w, e, hw⟩ := rehash_ok new (s.lastScan + s.lastLen) s.prekey
    simp only [e, Out.bind_ok]
    refine ⟨_, rfl, ⟨?_, ?_, ?_, ?_, ?_⟩, measure_start ?_ ?_⟩
    · simp only; omega
    · simp only; omega
    · simp only; omega
    · simp
    · exact hw
    · simp only; omega
    · simp only; omega
  · obtain ⟨sc, p, l, e, k1, k2, k3, k4⟩ := backExt_ok old new (s.lastScan - s.scanStart) s.lastScan s.lastPos s.lastLen ha
    rw [e, Out.bind_ok]
    simp only
    obtain ⟨⟨a, b, c⟩, e2⟩ := rescore_ok old new lastOff s sc l (by omega)
    rw [e2, Out.bind_ok]
    simp only
    split
    · refine ⟨_, rfl, by omega, Or.inr ⟨by omega, k1⟩⟩
    · have hns : s.lastScan < nextScan sc l s.lastScan ∧ nextScan sc l s.lastScan ≤ new.length := by
        unfold nextScan
        have hg : (if l > 3 * hsize + 32 then sc + (l - (3 * hsize + 32)) else sc) ≤ new.length := by
          split <;> omega
        generalize (if l > 3 * hsize + 32 then sc + (l - (3 * hsize + 32)) else sc) = g at hg
        simp only
        constructor <;> split <;> omega
      obtain ⟨w, e3, hw⟩ := rehash_ok new (nextScan sc l s.lastScan) s.prekey
      rw [e3, Out.bind_ok]
      refine ⟨_, rfl, ⟨?_, ?_, ?_, ?_, ?_⟩, measure_start ?_ ?_⟩
      · simp only; omega
      · simp
      · exact hns.2
      · simp
      · exact hw
      · simp only; omega
      · exact hns.2

theorem rot1_eq (x : Word) : rot1 x = (x <<< 1) ^^^ (if x.getLsbD 31 then 1#32 else 0#32) := by
  unfold rot1
  congr 1
  rw [show (1#32 <<< 31) = BitVec.twoPow 32 31 from rfl]
  by_cases h : x.getLsbD 31 = true
  · have : x &&& BitVec.twoPow 32 31 ≠ 0 := by
      rw [BitVec.and_twoPow, if_pos h]; decide
    rw [if_pos this, if_pos h]; rfl
  · have : ¬ (x &&& BitVec.twoPow 32 31 ≠ 0) := by
      rw [BitVec.and_twoPow, if_neg h]; decide
    rw [if_neg this, if_neg h]; rfl

theorem rot1_getElem (x : Word) (i : Nat) (hi : i < 32) :
    (rot1 x)[i] = x.getLsbD ((i + 31) % 32) := by
  rw [rot1_eq]
  rcases i with _ | i
  · cases h : x.getLsbD 31 <;> simp
  · rw [show (i + 1 + 31) % 32 = i by omega, BitVec.getLsbD_eq_getElem (show i < 32 by omega)]
    cases h : x.getLsbD 31 <;> simp

theorem rot1_xor (x y : Word) : rot1 (x ^^^ y) = rot1 x ^^^ rot1 y := by
  ext i hi
  rw [BitVec.getElem_xor, rot1_getElem, rot1_getElem, rot1_getElem, BitVec.getLsbD_xor]

/-- `n` single rotations. -/
def rotN : Nat → Word → Word
  | 0, x => x
  | n + 1, x => rotN n (rot1 x)

theorem rotN_xor (n : Nat) (x y : Word) : rotN n (x ^^^ y) = rotN n x ^^^ rotN n y := by
  induction n generalizing x y with
  | zero => rfl
  | succ n ih => simp only [rotN, rot1_xor, ih]

theorem rotN_succ' (n : Nat) (x : Word) : rotN (n + 1) x = rot1 (rotN n x) := by
  induction n generalizing x with
  | zero => rfl
  | succ n ih => rw [rotN, ih, rotN]

theorem rotN_getElem (n : Nat) (x : Word) (i : Nat) (hi : i < 32) :
    (rotN n x)[i] = x.getLsbD ((i + 31 * n) % 32) := by
  induction n generalizing x i with
  | zero => simp [rotN, Nat.mod_eq_of_lt hi, BitVec.getLsbD_eq_getElem hi]
  | succ n ih =>
    rw [rotN_succ', rot1_getElem _ _ hi, BitVec.getLsbD_eq_getElem (Nat.mod_lt _ (by omega)), ih]
    congr 1
    omega

theorem rotN_16 (x : Word) : rotN 16 x = (x <<< 16) ^^^ (x >>> 16) := by
  ext i hi
  rw [rotN_getElem _ _ _ hi, BitVec.getElem_xor, BitVec.getElem_shiftLeft, BitVec.getElem_ushiftRight]
  by_cases h : i < 16
  · rw [show (i + 31 * 16) % 32 = 16 + i by omega]
    simp [h]
  · rw [show (i + 31 * 16) % 32 = i - 16 by omega, BitVec.getLsbD_of_ge _ (16 + i) (by omega)]
    simp [h, BitVec.getLsbD_eq_getElem (show i - 16 < 32 by omega)]

def buzFrom (c : Word) (w : Bytes) : Word := w.foldl (fun x b => rot1 x ^^^ noise b) c

theorem buzFrom_xor (c d : Word) (w : Bytes) : buzFrom (c ^^^ d) w = buzFrom c w ^^^ rotN w.length d := by
  induction w generalizing c d with
  | nil => rfl
  | cons b w ih =>
    show buzFrom (rot1 (c ^^^ d) ^^^ noise b) w = buzFrom (rot1 c ^^^ noise b) w ^^^ rotN w.length (rot1 d)
    rw [← ih, rot1_xor, BitVec.xor_assoc, BitVec.xor_comm (rot1 d), ← BitVec.xor_assoc]

theorem rollHash_window (b x : UInt8) (w : Bytes) (hw : w.length = 15) :
    rollHash (buzhash (b :: w)) b x = buzhash (w ++ [x]) := by
  have h1 : buzhash (b :: w) = buzFrom 0x83D31DF4 w ^^^
      rotN 15 (0x83D31DF4 ^^^ (rot1 0x83D31DF4 ^^^ noise b)) := by
    rw [← hw, ← buzFrom_xor, ← BitVec.xor_assoc, BitVec.xor_self, BitVec.zero_xor]
    rfl
  have h2 : buzhash (w ++ [x]) = rot1 (buzFrom 0x83D31DF4 w) ^^^ noise x := by
    simp [buzhash, buzFrom, List.foldl_append]
  have h3 : rot1 (0x83D31DF4 : Word) = 0x07A63BE9 := by decide
  unfold rollHash
  simp only
  rw [← rotN_16, h1, h2, rot1_xor, ← rotN_succ', h3]
  rw [show (0x83D31DF4 ^^^ (0x07A63BE9 ^^^ noise b) : Word) = noise b ^^^ (0x83D31DF4 ^^^ 0x07A63BE9) by
    rw [← BitVec.xor_assoc, BitVec.xor_comm]]
  generalize rotN 16 (noise b ^^^ (0x83D31DF4 ^^^ 0x07A63BE9)) = r
  rw [BitVec.xor_assoc, BitVec.xor_assoc, BitVec.xor_comm r, BitVec.xor_assoc, BitVec.xor_self,
    BitVec.xor_zero]

theorem slice_cons (a : List α) (i n : Nat) (h : i < a.length) :
    slice a i (n + 1) = a[i] :: slice a (i + 1) n := by
  rw [Nat.add_comm, ← slice_append_slice]
  simp [slice, List.take_one, List.head?_drop, List.getElem?_eq_getElem h]

theorem scanNext_ok (old new : Bytes) (lastOff s0 : Nat) (s : SearchSt) (hi : SearchInv old new s0 s)
    (hlt : s.scan + 16 < new.length) :
    ∃ r, scanNext old new lastOff s = .ok r ∧ ResOK old new s0 s r := by
  unfold scanNext
  split
  · rename_i h
    exact gotIt_ok old new lastOff s0 s hi h.1
  · rw [rd_ok (by simp only [hsize]; omega : s.scan + hsize < new.length),
      rd_ok (by omega : s.scan < new.length)]
    simp only [Out.bind_ok]
    have h1 := hi.start
    have h2 := hi.scan
    refine ⟨_, rfl, ⟨h1, ?_, ?_, ?_, ?_⟩, ?_⟩
    · simp only; omega
    · simp only; omega
    · intro h
      obtain ⟨a, b, c⟩ := hi.last h
      exact ⟨a, by simp only; omega, c⟩
    · intro _
      simp only [hsize]
      rw [hi.roll hlt, slice_cons _ _ _ (by omega : s.scan < new.length),
        rollHash_window _ _ _ (slice_length (by omega)), slice_succ _ _ 15 (by omega)]
    · unfold searchMeasure
      simp only
      omega

theorem remember_inv (old new : Bytes) (s0 : Nat) (s : SearchSt) (pos len : Nat)
    (hi : SearchInv old new s0 s) (ha : Agree old new pos s.scan len) :
    SearchInv old new s0 (remember s pos len) ∧ (remember s pos len).scan = s.scan ∧
      (remember s pos len).scanStart = s.scanStart := by
  unfold remember
  split
  · exact ⟨⟨hi.start, hi.scan, hi.le, fun _ => ⟨hi.scan, Nat.le_refl _, ha⟩, hi.roll⟩, rfl, rfl⟩
  · exact ⟨hi, rfl, rfl⟩

theorem lenMinusH_eq {n : Nat} (h : 16 ≤ n) (h2 : n < 2^64) : lenMinusH n = n - 16 := by
  unfold lenMinusH hsize
  omega

theorem searchStep_ok (h : Hash) (old new : Bytes) (lastOff s0 : Nat) (s : SearchSt)
    (hk : HashOK old h) (hn : 16 ≤ new.length) (hn2 : new.length < 2^64)
    (hi : SearchInv old new s0 s) :
    ∃ r, searchStep h old new lastOff s = .ok r ∧ ResOK old new s0 s r := by
  unfold searchStep
  rw [lenMinusH_eq hn hn2]
  split
  · split
    · exact gotIt_ok old new lastOff s0 s hi (by assumption)
    · have := hi.start
      have := hi.scan
      exact ⟨_, rfl, by omega, Or.inl (by omega)⟩
  · obtain ⟨r, e, hr⟩ := candidate_ok h old new s.scan s.prekey hk (by omega)
    rw [e, Out.bind_ok]
    cases r with
    | none => exact scanNext_ok old new lastOff s0 s hi (by omega)
    | some pos =>
      simp only
      obtain ⟨p, l, e2, h1, h2⟩ := bestMatch_ok h old new s.scan pos hk (hr _ rfl)
      rw [e2, Out.bind_ok]
      obtain ⟨k1, k2, k3⟩ := remember_inv old new s0 s p l hi h2
      obtain ⟨r, e3, hr3⟩ := scanNext_ok old new lastOff s0 _ k1 (by rw [k2]; omega)
      refine ⟨r, e3, ?_⟩
      have : searchMeasure new.length (remember s p l) = searchMeasure new.length s := by
        simp only [searchMeasure, k2, k3]
      cases r with
      | cont s' => exact ⟨hr3.1, this ▸ hr3.2⟩
      | done a b c => exact hr3

theorem searchLoop_ok (h : Hash) (old new : Bytes) (lastOff s0 : Nat)
    (hk : HashOK old h) (hn : 16 ≤ new.length) (hn2 : new.length < 2^64)
    (fuel : Nat) (s : SearchSt) (hi : SearchInv old new s0 s)
    (hf : searchMeasure new.length s < fuel) :
    ∃ scan pos len, searchLoop h old new lastOff fuel s = .ok (scan, pos, len) ∧ s0 ≤ scan ∧
      (scan + 16 ≥ new.length ∨ (32 ≤ len ∧ Agree old new pos scan len)) := by
  induction fuel generalizing s with
  | zero => omega
  | succ fuel ih =>
    unfold searchLoop
    obtain ⟨r, e, hr⟩ := searchStep_ok h old new lastOff s0 s hk hn hn2 hi
    rw [e, Out.bind_ok]
    cases r with
    | done a b c => exact ⟨a, b, c, rfl, hr⟩
    | cont s' => exact ih s' hr.1 (by have := hr.2; omega)

theorem hashSearch_ok (h : Hash) (old new : Bytes) (lastOff scan : Nat)
    (hk : HashOK old h) (hn : 16 ≤ new.length) (hn2 : new.length < 2^64) (hs : scan ≤ new.length) :
    ∃ r, hashSearch h old new lastOff scan = .ok r ∧ GoodMatch old new scan r := by
  unfold hashSearch startHash
  rw [lenMinusH_eq hn hn2]
  obtain ⟨pk, e, hpk⟩ : ∃ pk, (if scan ≤ new.length - 16 then do
      let w ← rdBlk new scan hsize
      .ok (buzhash w)
    else .ok 0) = Out.ok pk ∧ (scan + 16 < new.length → pk = buzhash (slice new scan 16)) := by
    split
    · rw [rdBlk_ok (by simp only [hsize]; omega)]
      exact ⟨_, rfl, fun _ => rfl⟩
    · exact ⟨_, rfl, fun _ => by omega⟩
  rw [e, Out.bind_ok]
  obtain ⟨a, b, c, e2, h1, h2⟩ := searchLoop_ok h old new lastOff scan hk hn hn2
    (searchFuel new.length) ⟨scan, scan, pk, 0, 0, 0, 0, 0, 0⟩
    ⟨Nat.le_refl _, Nat.le_refl _, hs, by simp, hpk⟩ (by
      unfold searchMeasure searchFuel
      simp only
      have : (new.length + 1 - scan) * (new.length + 2) ≤ (new.length + 1) * (new.length + 2) :=
        Nat.mul_le_mul_right _ (by omega)
      have h3 : (new.length + 2) * (new.length + 3) =
        (new.length + 1) * (new.length + 2) + 2 * (new.length + 2) := by
        rw [Nat.mul_comm, ← Nat.add_mul]
      omega)
  rw [e2, Out.bind_ok]
  simp only
  split
  · exact ⟨_, rfl, Or.inl rfl⟩
  · rcases h2 with h2 | ⟨h2, h3, h4, h5⟩
    · omega
    · exact ⟨_, rfl, Or.inr ⟨h1, h2, h4, h3, h5⟩⟩

theorem hashSearch_SearchOK (h : Hash) (old new : Bytes) (hk : HashOK old h) (hn : 16 ≤ new.length)
    (hn2 : new.length < 2^64) : SearchOK old new (hashSearch h old new) :=
  fun lastOff scan hs => hashSearch_ok h old new lastOff scan hk hn hn2 hs

end Drpm
