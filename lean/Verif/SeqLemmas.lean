import Verif.Seq
import Verif.UtilsLemmas
/-! Helper lemmas about the sequence encoder and decoder. -/

namespace Drpm

/-- The nibbles of one encoded number. -/
def encNibs : Nat → Nat → List Nat
  | 0, _ => []
  | len + 1, v => ((v &&& 7) ||| (if len + 1 > 1 then 1 <<< 3 else 0)) :: encNibs len (v >>> 3)

theorem encNibs_length (len v : Nat) : (encNibs len v).length = len := by
  induction len generalizing v with
  | zero => rfl
  | succ n ih => simp [encNibs, ih]

theorem nibLenAux_pos (fuel v : Nat) : 1 ≤ nibLenAux fuel v := by
  cases fuel with
  | zero => simp [nibLenAux]
  | succ n => simp only [nibLenAux]; split <;> omega

theorem nibLenAux_bound (fuel v k : Nat) (hk : v < 8 ^ (k + 1)) : nibLenAux fuel v ≤ k + 1 := by
  induction fuel generalizing v k with
  | zero => simp [nibLenAux]
  | succ n ih =>
    simp only [nibLenAux]
    split
    · cases k with
      | zero => simp at hk; omega
      | succ k =>
        have : v >>> 3 < 8 ^ (k + 1) := by
          rw [Nat.shiftRight_eq_div_pow]
          have : 8 ^ (k + 1 + 1) = 8 ^ (k + 1) * 8 := Nat.pow_succ ..
          omega
        have := ih _ k this
        omega
    · omega

theorem nibLen_le (v : Nat) (h : v < 2^32) : nibLen v ≤ 11 :=
  nibLenAux_bound v v 10 (by omega)

theorem nibLenAux_covers (fuel v : Nat) (h : v ≤ fuel) : v < 8 ^ nibLenAux fuel v := by
  induction fuel generalizing v with
  | zero => simp [nibLenAux]; omega
  | succ n ih =>
    simp only [nibLenAux]
    split
    · have hle : v >>> 3 ≤ n := by rw [Nat.shiftRight_eq_div_pow]; omega
      have := ih _ hle
      rw [Nat.shiftRight_eq_div_pow] at this
      rw [Nat.pow_succ, Nat.shiftRight_eq_div_pow]
      omega
    · omega

theorem nibLen_covers (v : Nat) : v < 8 ^ nibLen v := nibLenAux_covers v v (Nat.le_refl _)

/-! ### Encoder: what is written -/

/-- The encoder state holds exactly the nibbles `ns`. -/
structure Holds (s : SeqSt) (ns : List Nat) : Prop where
  idx : s.index = ns.length
  len : s.data.length = seqByteLen s.index
  alloc : s.data.length ≤ s.alloc
  nib : nibbles s.data = ns ++ List.replicate (s.index % 2) 0
  small : ∀ n ∈ ns, n < 16

theorem nibbles_append (a b : Bytes) : nibbles (a ++ b) = nibbles a ++ nibbles b := by
  simp [nibbles]

theorem nibbles_length (a : Bytes) : (nibbles a).length = 2 * a.length := by
  induction a with
  | nil => rfl
  | cons x a ih => simp [nibbles] at *; omega

theorem byte_hi : ∀ n : Fin 16, (UInt8.ofNat (n.val <<< 4)).toNat >>> 4 = n.val ∧
    (UInt8.ofNat (n.val <<< 4)).toNat &&& 15 = 0 := by decide +kernel

theorem byte_lo : ∀ h n : Fin 16,
    (UInt8.ofNat (h.val <<< 4) ||| UInt8.ofNat n.val).toNat >>> 4 = h.val ∧
    (UInt8.ofNat (h.val <<< 4) ||| UInt8.ofNat n.val).toNat &&& 15 = n.val := by decide +kernel

theorem byte_of_hi_zero_aux : ∀ b : Fin 256, (UInt8.ofNat b.val).toNat &&& 15 = 0 →
    UInt8.ofNat b.val = UInt8.ofNat (((UInt8.ofNat b.val).toNat >>> 4) <<< 4) := by decide +kernel

theorem byte_of_hi_zero (b : UInt8) (h : b.toNat &&& 15 = 0) :
    b = UInt8.ofNat ((b.toNat >>> 4) <<< 4) := by
  have := byte_of_hi_zero_aux ⟨b.toNat, u8_lt b⟩
  simp only [UInt8.ofNat_toNat] at this
  exact this h

theorem putNib_holds (s : SeqSt) (ns : List Nat) (n : Nat) (h : Holds s ns) (hn : n < 16)
    (ha : s.index / 2 < s.alloc) :
    ∃ s', putNib s n = .ok s' ∧ Holds s' (ns ++ [n]) ∧ s'.alloc = s.alloc ∧
      s'.lastStart = s.lastStart ∧ s'.last = s.last ∧ s'.index = s.index + 1 := by
  obtain ⟨hidx, hlen, hal, hnib, hsmall⟩ := h
  have hsm' : ∀ m ∈ ns ++ [n], m < 16 := by
    intro m hm; rw [List.mem_append, List.mem_singleton] at hm
    rcases hm with h | rfl
    · exact hsmall m h
    · exact hn
  unfold putNib
  rw [if_pos ha]
  simp only [seqByteLen] at hlen
  by_cases hev : s.index % 2 = 0
  · rw [if_pos hev]
    refine ⟨_, rfl, ⟨by simp [hidx], ?_, ?_, ?_, hsm'⟩, rfl, rfl, rfl, rfl⟩
    · simp [seqByteLen]; omega
    · simp; omega
    · have ht : s.data.take (s.index / 2) = s.data := List.take_of_length_le (by omega)
      simp only [ht, nibbles_append, hnib, hev]
      have e1 : (s.index + 1) % 2 = 1 := by omega
      rw [e1]
      have := byte_hi ⟨n, hn⟩
      simp only [nibbles, List.map_cons, List.map_nil, List.flatten_cons, List.flatten_nil,
        List.append_nil, this.1, this.2, List.replicate_zero, List.replicate_one]
      simp
  · rw [if_neg hev]
    have hodd : s.index % 2 = 1 := by omega
    have hlt : s.index / 2 < s.data.length := by omega
    rw [List.getElem?_eq_getElem hlt]
    simp only
    refine ⟨_, rfl, ⟨by simp [hidx], ?_, ?_, ?_, hsm'⟩, rfl, rfl, rfl, rfl⟩
    · simp [seqByteLen]; omega
    · simpa using hal
    · have hlast : s.data.length = s.index / 2 + 1 := by omega
      have hd : s.data = s.data.take (s.index / 2) ++ [s.data[s.index / 2]] := by
        have := List.take_append_getElem hlt
        rw [this, List.take_of_length_le (by omega)]
      obtain ⟨b, hb⟩ : ∃ b, s.data[s.index / 2] = b := ⟨_, rfl⟩
      rw [hb] at hd
      have hset : s.data.set (s.index / 2) (s.data[s.index / 2] ||| UInt8.ofNat n) =
          s.data.take (s.index / 2) ++ [b ||| UInt8.ofNat n] := by
        rw [hb]
        conv => lhs; rw [hd]
        rw [List.set_append_right _ _ (by simp; omega)]
        have : s.index / 2 - (s.data.take (s.index / 2)).length = 0 := by
          simp; omega
        rw [this]; rfl
      rw [hset]
      have hn2 := hnib
      rw [hd, nibbles_append, hodd] at hn2
      simp only [nibbles, List.map_cons, List.map_nil, List.flatten_cons, List.flatten_nil,
        List.append_nil, List.replicate_one] at hn2
      -- split the last nibble
      have hcut : ((s.data.take (s.index / 2)).map
          (fun b : UInt8 => [b.toNat >>> 4, b.toNat &&& 15])).flatten =
            nibbles (s.data.take (s.index / 2)) := rfl
      rw [hcut] at hn2
      have h3 : (nibbles (s.data.take (s.index / 2)) ++ [b.toNat >>> 4]) ++ [b.toNat &&& 15]
          = ns ++ [0] := by simpa using hn2
      obtain ⟨h4, h5⟩ := List.append_inj' h3 rfl
      simp only [List.cons.injEq, and_true] at h5
      have hbhi : b.toNat >>> 4 < 16 := by
        rw [Nat.shiftRight_eq_div_pow]; have := u8_lt b; omega
      have hbb := byte_of_hi_zero b h5
      have e2 : (s.index + 1) % 2 = 0 := by omega
      rw [nibbles_append, e2]
      have hlo := byte_lo ⟨b.toNat >>> 4, hbhi⟩ ⟨n, hn⟩
      simp only [← hbb] at hlo
      simp only [nibbles, List.map_cons, List.map_nil, List.flatten_cons, List.flatten_nil,
        List.append_nil, List.replicate_zero, hlo.1, hlo.2]
      rw [hcut, ← h4]; simp

theorem encNib_lt (v : Nat) (c : Bool) : (v &&& 7) ||| (if c then 1 <<< 3 else 0) < 16 := by
  have h1 : v &&& 7 < 2^4 := by
    rw [Nat.and_two_pow_sub_one_eq_mod v 3]; omega
  have h2 : (if c then 1 <<< 3 else 0) < 2^4 := by cases c <;> decide
  exact Nat.or_lt_two_pow h1 h2

theorem appendLoop_holds (len v : Nat) (s : SeqSt) (ns : List Nat) (h : Holds s ns)
    (ha : seqByteLen (s.index + len) ≤ s.alloc) :
    ∃ s', appendLoop len v s = .ok s' ∧ Holds s' (ns ++ encNibs len v) ∧ s'.alloc = s.alloc ∧
      s'.lastStart = s.lastStart ∧ s'.last = s.last := by
  induction len generalizing v s ns with
  | zero => exact ⟨s, rfl, by simpa [encNibs] using h, rfl, rfl, rfl⟩
  | succ n ih =>
    simp only [seqByteLen] at ha
    have hn := encNib_lt v (decide (n + 1 > 1))
    simp only [decide_eq_true_eq] at hn
    obtain ⟨s1, e1, h1, a1, b1, c1, i1⟩ := putNib_holds s ns _ h hn (by omega)
    obtain ⟨s2, e2, h2, a2, b2, c2⟩ := ih (v >>> 3) s1 _ h1 (by simp only [seqByteLen]; omega)
    refine ⟨s2, ?_, ?_, by omega, by rw [b2, b1], by rw [c2, c1]⟩
    · simp only [appendLoop, e1, Out.bind_ok, e2]
    · simpa [encNibs] using h2

theorem seqAppend_holds (v : Nat) (s : SeqSt) (ns : List Nat) (h : Holds s ns) (hv : v < 2^32) :
    ∃ s', seqAppend s v = .ok s' ∧ Holds s' (ns ++ encNibs (nibLen v) v) ∧
      s'.lastStart = s.lastStart ∧ s'.last = s.last := by
  have hl := nibLen_le v hv
  unfold seqAppend
  simp only
  have hlen := h.len
  have hal := h.alloc
  simp only [seqByteLen] at hlen
  split
  · obtain ⟨s2, e2, h2, _, b2, c2⟩ := appendLoop_holds (nibLen v) v { s with alloc := s.alloc + 32 } ns
      ⟨h.idx, h.len, by simp; omega, h.nib, h.small⟩ (by simp only [seqByteLen]; omega)
    exact ⟨s2, e2, h2, b2, c2⟩
  · obtain ⟨s2, e2, h2, _, b2, c2⟩ := appendLoop_holds (nibLen v) v s ns h (by omega)
    exact ⟨s2, e2, h2, b2, c2⟩

/-! ### Decoder on one encoded number -/

/-- What the decoder does with a complete number, src/drpm_apply.c:131-156. -/
def decNumber (fc : Nat) (s : DecSt) (number : Nat) : Out DecSt :=
  if s.jump then .ok { s with pos := number, toggle := true, jump := false }
  else if number = 0 then .ok { s with jump := true }
  else if !s.toggle then .ok { s with pos := (s.pos + number) % 2^64, toggle := true }
  else do
    let (ps, pos) ← pushRun fc number s.pos s.positions
    .ok { s with positions := ps, pos := pos, toggle := false }

theorem and8_of_lt (x : Nat) (h : x < 8) : x &&& 8 = 0 := by
  have : ∀ y : Fin 8, y.val &&& 8 = 0 := by decide
  exact this ⟨x, h⟩

theorem or8_facts (x : Nat) (h : x < 8) : ((x ||| 8) &&& 8 ≠ 0) ∧ (x ||| 8) ^^^ 8 = x := by
  have : ∀ y : Fin 8, ((y.val ||| 8) &&& 8 ≠ 0) ∧ (y.val ||| 8) ^^^ 8 = y.val := by decide
  exact this ⟨x, h⟩

theorem decode_number_aux (fc len v shift num : Nat) (s : DecSt) (hlen : 1 ≤ len)
    (hv : v < 8 ^ len) (hs : s.shift = shift) (hn : s.num = num) (hnum : num < 2 ^ shift)
    (hsh : shift + 3 * len ≤ 63) :
    (encNibs len v).foldlM (decStep fc) s =
      decNumber fc { s with num := 0, shift := 0 } (num + v * 2 ^ shift) := by
  induction len generalizing v shift num s with
  | zero => omega
  | succ n ih =>
    have hlow : v &&& 7 = v % 8 := Nat.and_two_pow_sub_one_eq_mod v 3
    have hl8 : v % 8 < 8 := by omega
    have hshift : ∀ x, x < 8 → (x <<< shift) % 2^64 = x * 2 ^ shift := by
      intro x hx
      rw [Nat.shiftLeft_eq]
      apply Nat.mod_eq_of_lt
      have h1 : 2 ^ shift ≤ 2 ^ 60 := Nat.pow_le_pow_right (by omega) (by omega)
      have h2 : x * 2 ^ shift ≤ 7 * 2 ^ 60 := Nat.mul_le_mul (by omega) h1
      omega
    have hor : ∀ x, num ||| x * 2 ^ shift = num + x * 2 ^ shift := by
      intro x
      rw [Nat.or_comm, ← Nat.shiftLeft_eq, ← Nat.shiftLeft_add_eq_or_of_lt hnum]
      omega
    simp only [encNibs, List.foldlM_cons, hlow]
    cases n with
    | zero =>
      simp only [encNibs, List.foldlM_nil]
      have hv8 : v < 8 := by simpa using hv
      rw [Nat.mod_eq_of_lt hv8]
      simp only [Nat.zero_add, gt_iff_lt, Nat.lt_irrefl, if_false, Nat.or_zero]
      have h8 : v &&& 1 <<< 3 = 0 := and8_of_lt _ hv8
      have step : decStep fc s v = decNumber fc { s with num := 0, shift := 0 } (num + v * 2 ^ shift) := by
        simp only [decStep, h8, ne_eq, not_true_eq_false, if_false]
        rw [shl64, hs, if_neg (by omega : ¬ shift ≥ 64), hshift _ hv8, Out.bind_ok]
        simp only [hn, hor]
        rfl
      rw [step]
      exact bind_pure _
    | succ m =>
      simp only [gt_iff_lt, show 1 < m + 1 + 1 by omega, if_true]
      obtain ⟨f1, f2⟩ := or8_facts (v % 8) hl8
      have f1' : (v % 8 ||| 1 <<< 3) &&& 1 <<< 3 ≠ 0 := f1
      have f2' : (v % 8 ||| 1 <<< 3) ^^^ 1 <<< 3 = v % 8 := f2
      have step : decStep fc s (v % 8 ||| 1 <<< 3) =
          .ok { s with num := num + (v % 8) * 2 ^ shift, shift := shift + 3 } := by
        simp only [decStep, if_pos f1', f2', shl64, hs, hn, if_neg (by omega : ¬ shift ≥ 64),
          hshift _ hl8, Out.bind_ok, hor]
      rw [step, Out.bind_ok, ih (v >>> 3) (shift + 3) (num + (v % 8) * 2 ^ shift) _ (by omega)
        (by rw [Nat.shiftRight_eq_div_pow]; have : 8 ^ (m + 1 + 1) = 8 ^ (m + 1) * 8 := Nat.pow_succ ..
            omega) rfl rfl ?_ (by omega)]
      · congr 1
        rw [Nat.shiftRight_eq_div_pow, Nat.pow_add, Nat.add_assoc, ← Nat.mul_assoc, Nat.mul_right_comm,
          ← Nat.add_mul]
        congr 2
        omega
      · rw [Nat.pow_add]
        have : (v % 8) * 2 ^ shift ≤ 7 * 2 ^ shift := Nat.mul_le_mul_right _ (by omega)
        omega

theorem decode_number (fc v : Nat) (s : DecSt) (hv : v < 2^32) (hs : s.shift = 0) (hn : s.num = 0) :
    (encNibs (nibLen v) v).foldlM (decStep fc) s = decNumber fc s v := by
  have h1 := nibLen_le v hv
  have h2 := nibLen_covers v
  have h3 : 1 ≤ nibLen v := nibLenAux_pos _ _
  rw [decode_number_aux fc (nibLen v) v 0 0 s h3 h2 hs hn (by simp) (by omega)]
  simp only [Nat.zero_add, Nat.pow_zero, Nat.mul_one]
  congr 1
  cases s; simp_all

theorem pushRun_ok (fc n pos : Nat) (ps : List Nat) (h1 : ps.length + n ≤ fc) (h2 : pos + n ≤ fc) :
    pushRun fc n pos ps = .ok (ps ++ List.range' pos n, pos + n) := by
  induction n generalizing pos ps with
  | zero => simp [pushRun]
  | succ n ih =>
    rw [pushRun, if_neg (by omega), if_neg (by omega), ih (pos + 1) (ps ++ [pos]) (by simp; omega) (by omega)]
    simp [List.range'_succ]; omega

/-! ### Encoder and decoder together -/

/-- After encoding `done` (plus the pending run from `lastStart` to `last`), the encoder holds
    nibbles on which the decoder reaches a state that has emitted `done` and stands at
    `lastStart`. -/
structure Sync (fc : Nat) (s : SeqSt) (pref : List Nat) : Prop where
  ns : ∃ ns done, Holds s ns ∧ s.lastStart + (s.last - s.lastStart + 1).toNat ≤ fc ∧
    (s.lastStart : Int) ≤ s.last + 1 ∧ -1 ≤ s.last ∧
    pref = done ++ List.range' s.lastStart (s.last - s.lastStart + 1).toNat ∧
    (0 ≤ s.last → (s.lastStart : Int) ≤ s.last) ∧
    ns.foldlM (decStep fc) DecSt.init = .ok ⟨done, 0, 0, false, true, s.lastStart⟩

theorem holds_init : Holds SeqSt.init [] :=
  ⟨rfl, rfl, by simp [SeqSt.init], rfl, nofun⟩

theorem sync_init (fc : Nat) : Sync fc SeqSt.init [] :=
  ⟨[], [], holds_init, by simp [SeqSt.init], by simp [SeqSt.init], by simp [SeqSt.init],
    by simp [SeqSt.init], by simp [SeqSt.init], rfl⟩

theorem u32OfInt_nat (n : Nat) (h : n < 2^32) : u32OfInt (n : Int) = n := by
  unfold u32OfInt; omega

theorem runLen_eq (s : SeqSt) (h1 : (s.lastStart : Int) ≤ s.last + 1)
    (h2 : (s.last - s.lastStart + 1).toNat < 2^32) :
    runLen s = (s.last - s.lastStart + 1).toNat := by
  unfold runLen
  rw [← u32OfInt_nat _ h2]; congr 1; omega

/-- Flushing the pending run (src/drpm_make.c:136-139 and 158-161). -/
theorem flush_run (fc : Nat) (s : SeqSt) (ns done : List Nat) (hfc : fc < 2^32)
    (hh : Holds s ns) (hb : s.lastStart + (s.last - s.lastStart + 1).toNat ≤ fc)
    (h1 : (s.lastStart : Int) ≤ s.last + 1)
    (hlen : done.length + (s.last - s.lastStart + 1).toNat ≤ fc)
    (hd : ns.foldlM (decStep fc) DecSt.init = .ok ⟨done, 0, 0, false, true, s.lastStart⟩) :
    ∃ s' ns' tg, flushRun s = .ok s' ∧
      Holds s' ns' ∧ s'.lastStart = s.lastStart ∧ s'.last = s.last ∧
      ns'.foldlM (decStep fc) DecSt.init =
        .ok ⟨done ++ List.range' s.lastStart (s.last - s.lastStart + 1).toNat, 0, 0, false, tg,
          s.lastStart + (s.last - s.lastStart + 1).toNat⟩ ∧
      (tg = true → (s.last - s.lastStart + 1).toNat = 0) := by
  have hr := runLen_eq s h1 (by omega)
  obtain ⟨r, hrr⟩ : ∃ r, (s.last - s.lastStart + 1).toNat = r := ⟨_, rfl⟩
  rw [hrr] at hr hb hlen ⊢
  unfold flushRun
  rw [hr]
  split
  · rename_i hpos
    obtain ⟨s', e, hh', a, b⟩ := seqAppend_holds r s ns hh (by omega)
    refine ⟨s', _, false, e, hh', a, b, ?_, nofun⟩
    rw [List.foldlM_append, hd, Out.bind_ok, decode_number fc r _ (by omega) rfl rfl]
    simp only [decNumber, Bool.false_eq_true, if_false, if_neg (by omega : ¬ r = 0),
      Bool.not_true]
    rw [pushRun_ok fc r _ _ hlen hb]
    rfl
  · have : r = 0 := by omega
    subst this
    exact ⟨s, ns, true, rfl, hh, rfl, rfl, by simpa using hd, fun _ => rfl⟩

theorem sync_step (fc : Nat) (s : SeqSt) (pref : List Nat) (i : Nat) (hfc : fc < 2^32)
    (h : Sync fc s pref) (hi : i < fc) (hlen : pref.length + 1 ≤ fc) :
    ∃ s', seqAdd s i = .ok s' ∧ Sync fc s' (pref ++ [i]) := by
  obtain ⟨ns, done, hh, hb, h1, hm1, hpref, hz, hd⟩ := h
  unfold seqAdd
  by_cases hc : (i : Int) = s.last + 1
  · rw [if_pos hc]
    refine ⟨_, rfl, ns, done, ⟨hh.idx, hh.len, hh.alloc, hh.nib, hh.small⟩, ?_, ?_, ?_, ?_, ?_, hd⟩
    · simp only; omega
    · simp only; omega
    · simp only; omega
    · simp only
      have e : (s.last + 1 - s.lastStart + 1).toNat = (s.last - s.lastStart + 1).toNat + 1 := by omega
      rw [e, hpref, List.append_assoc]
      congr 1
      rw [List.range'_concat]
      simp; omega
    · simp only; omega
  · rw [if_neg hc]
    have hpl : pref.length = done.length + (s.last - s.lastStart + 1).toNat := by
      rw [hpref]; simp
    obtain ⟨s1, ns1, tg, e1, hh1, a1, b1, d1, htg⟩ :=
      flush_run fc s ns done hfc hh hb h1 (by omega) hd
    rw [e1, Out.bind_ok]
    unfold addJump
    have hfin : ∀ s2 : SeqSt, (({ s2 with lastStart := i, last := (i : Int) } : SeqSt).last -
        ({ s2 with lastStart := i, last := (i : Int) } : SeqSt).lastStart + 1).toNat = 1 := by
      intro s2; simp only; omega
    by_cases hg : s1.last ≥ 0 ∧ (i : Int) > s1.last + 1
    · rw [if_pos hg]
      rw [b1] at hg ⊢
      have e : (u32OfInt ((i : Int) - (s.last + 1)) : Int) = (i : Int) - (s.last + 1) := by
        unfold u32OfInt; omega
      obtain ⟨s2, e2, hh2, a2, b2⟩ := seqAppend_holds (u32OfInt ((i : Int) - (s.last + 1))) s1 ns1 hh1
        (by omega)
      rw [e2, Out.bind_ok]
      refine ⟨_, rfl, _, pref, ⟨hh2.idx, hh2.len, hh2.alloc, hh2.nib, hh2.small⟩, ?_, ?_, ?_, ?_, ?_, ?_⟩
      · rw [hfin]; simp only; omega
      · simp only; omega
      · simp only; omega
      · rw [hfin]; simp
      · simp only; omega
      · rw [List.foldlM_append, d1, Out.bind_ok, decode_number fc _ _ (by omega) rfl rfl]
        have tgf : tg = false := by
          cases tg with
          | false => rfl
          | true => have := htg rfl; exfalso; omega
        simp only [decNumber, Bool.false_eq_true, if_false, tgf, Bool.not_false, if_true,
          if_neg (by omega : ¬ u32OfInt ((i : Int) - (s.last + 1)) = 0), Out.ok.injEq, DecSt.mk.injEq,
          true_and]
        exact ⟨hpref.symm, by omega⟩
    · rw [if_neg hg]
      obtain ⟨s2, e2, hh2, a2, b2⟩ := seqAppend_holds 0 s1 ns1 hh1 (by omega)
      obtain ⟨s3, e3, hh3, a3, b3⟩ := seqAppend_holds i s2 _ hh2 (by omega)
      simp only [e2, Out.bind_ok, e3]
      refine ⟨_, rfl, _, pref, ⟨hh3.idx, hh3.len, hh3.alloc, hh3.nib, hh3.small⟩, ?_, ?_, ?_, ?_, ?_, ?_⟩
      · rw [hfin]; simp only; omega
      · simp only; omega
      · simp only; omega
      · rw [hfin]; simp
      · simp only; omega
      · rw [List.foldlM_append, List.foldlM_append, d1, Out.bind_ok,
          decode_number fc 0 _ (by omega) rfl rfl]
        simp only [decNumber, Bool.false_eq_true, if_false, if_true, Out.bind_ok]
        rw [decode_number fc i _ (by omega) rfl rfl]
        simp only [decNumber, if_true, Out.ok.injEq, DecSt.mk.injEq, and_true]
        exact hpref.symm

theorem sync_foldl (fc : Nat) (hfc : fc < 2^32) (idxs : List Nat) (s : SeqSt) (pref : List Nat)
    (h : Sync fc s pref) (hi : ∀ i ∈ idxs, i < fc) (hlen : pref.length + idxs.length ≤ fc) :
    ∃ s', idxs.foldlM seqAdd s = .ok s' ∧ Sync fc s' (pref ++ idxs) := by
  induction idxs generalizing s pref with
  | nil => exact ⟨s, rfl, by simpa using h⟩
  | cons i rest ih =>
    simp only [List.length_cons] at hlen
    obtain ⟨s1, e1, h1⟩ := sync_step fc s pref i hfc h (hi i (by simp)) (by omega)
    obtain ⟨s2, e2, h2⟩ := ih s1 _ h1 (fun j hj => hi j (by simp [hj])) (by simp; omega)
    refine ⟨s2, ?_, by simpa using h2⟩
    rw [List.foldlM_cons, e1, Out.bind_ok, e2]

theorem encode_decode (fc : Nat) (hfc : fc < 2^32) (idxs : List Nat) (hi : ∀ i ∈ idxs, i < fc)
    (hlen : idxs.length ≤ fc) :
    ∃ bs, encodeSeq idxs = .ok bs ∧ decodeSeq fc bs = .ok idxs := by
  obtain ⟨s, e, ns, done, hh, hb, h1, hm1, hpref, hz, hd⟩ :=
    sync_foldl fc hfc idxs SeqSt.init [] (sync_init fc) hi (by simpa using hlen)
  simp only [List.nil_append] at hpref
  have hpl : idxs.length = done.length + (s.last - s.lastStart + 1).toNat := by
    rw [hpref]; simp
  obtain ⟨s1, ns1, tg, e1, hh1, a1, b1, d1, _⟩ :=
      flush_run fc s ns done hfc hh hb h1 (by omega) hd
  refine ⟨s1.data, ?_, ?_⟩
  · unfold encodeSeq seqFinal
    rw [e, Out.bind_ok]
    rw [e1, Out.bind_ok, ← hh1.len, List.take_length]
  · unfold decodeSeq
    rw [hh1.nib, List.foldlM_append, d1, Out.bind_ok, ← hpref]
    rcases Nat.mod_two_eq_zero_or_one s1.index with h0 | h0 <;> rw [h0]
    · simp
    · simp [decStep, shl64]

end Drpm
