import Verif.CpioRead
import Verif.CacheRefine
import Verif.Apply
import Verif.CpioMake
import Verif.Props.Cpio
/-!
# Reading an old package block by block is defined, whatever its archive contains
-/

namespace Drpm

/-- The outcome is defined, and `P` holds of the result if there is one. -/
def Out.Good (P : α → Prop) : Out α → Prop
  | .ok a => P a
  | .err _ => True
  | .ub => False
  | .loop => False

theorem Out.Good.bind {P : α → Prop} {Q : β → Prop} {x : Out α} {f : α → Out β} (h : x.Good P)
    (hf : ∀ a, P a → (f a).Good Q) : (x >>= f).Good Q := by
  cases x with
  | ok a => exact hf a h
  | err e => trivial
  | ub => exact h
  | loop => exact h

theorem Out.Good.mono {P Q : α → Prop} {x : Out α} (h : x.Good P) (hf : ∀ a, P a → Q a) : x.Good Q := by
  cases x with
  | ok a => exact hf a h
  | err e => trivial
  | ub => exact h
  | loop => exact h

theorem Out.Good.defined {P : α → Prop} {x : Out α} (h : x.Good P) : x.Defined := by
  cases x with
  | ok a => exact Out.defined_ok a
  | err e => exact Out.defined_err e
  | ub => exact absurd h id
  | loop => exact absurd h id

theorem Out.Defined.good {x : Out α} (h : x.Defined) : x.Good (fun a => x = .ok a) := by
  cases x with
  | ok a => rfl
  | err e => trivial
  | ub => exact absurd rfl h.1
  | loop => exact absurd rfl h.2

theorem Out.Good.ite {P : α → Prop} {c : Prop} [Decidable c] {x y : Out α} (h1 : c → x.Good P) (h2 : ¬ c → y.Good P) :
    (if c then x else y).Good P := by
  split
  · exact h1 ‹_›
  · exact h2 ‹_›

theorem rdBlk_good {a : Bytes} {i n : Nat} (h : i + n ≤ a.length) : (rdBlk a i n).Good (fun b => b.length = n) := by
  rw [rdBlk_ok h]
  exact slice_length h

theorem archiveRead_good {archive : Bytes} {off n : Nat} (hl : archive.length < 2^63) (ho : off ≤ archive.length) (hn : n < 2^63) :
    (archiveRead archive off n).Good (fun r => r.1 = slice archive off n ∧ r.2 = off + n ∧ off + n ≤ archive.length) := by
  by_cases h : off + n ≤ archive.length
  · rw [archiveRead_ok hl h]
    exact ⟨rfl, rfl, h⟩
  · rw [archiveRead_fail hl ho hn (by omega)]
    trivial

/-- No CPIO header anywhere in the archive has a name of length zero (such a header makes the program
    write before a buffer). -/
def NoEmptyName (archive : Bytes) : Prop :=
  ∀ off h, cpioHeaderRead (slice archive off 110) = .ok h → h.namesize ≠ 0

theorem readHead_good {archive : Bytes} {off : Nat} (hl : archive.length < 2^63) (ho : off ≤ archive.length)
    (hne : NoEmptyName archive) : (readHead archive off).Good (fun r => off + 110 ≤ r.2.2 ∧ r.2.2 ≤ archive.length ∧
      r.1.namesize < 2^16 ∧ r.1.filesize < 2^32) := by
  have hd : (readHead archive off).Good (fun _ => True) := by
    unfold readHead
    refine (archiveRead_good hl ho (by decide)).bind ?_
    rintro ⟨hb, o⟩ ⟨h1, h2, h3⟩
    simp only at h1 h2
    subst h1 h2
    simp only
    have hlen : (slice archive off 110).length = 110 := slice_length h3
    refine ((C20_accepted _ hlen).1.good).bind ?_
    intro h hh
    have hns : h.namesize < 2^16 := by
      unfold cpioHeaderRead at hh
      split at hh
      · cases hh
      · simp only [Out.bind_eq_ok] at hh
        obtain ⟨_, _, _, _, _, _, _, _, _, _, _, _, _, _, _, _, _, _, _, _, _, _, _, _, r2⟩ := hh
        cases r2
        exact Nat.mod_lt _ (by decide)
    refine (archiveRead_good hl h3 (by omega)).bind ?_
    intro x hx
    exact Out.Good.ite (fun h0 => absurd h0 (hne _ _ hh)) (fun _ => trivial)
  cases hr : readHead archive off with
  | ok r =>
    obtain ⟨h, name, o⟩ := r
    obtain ⟨h1, h2, h3, h4⟩ := readHead_inv hl ho hr
    exact ⟨by simp only; omega, h2, h3, h4⟩
  | err e => trivial
  | ub => rw [hr] at hd; exact hd
  | loop => rw [hr] at hd; exact hd

theorem stdScan_good {archive : Bytes} (hl : archive.length < 2^63) (hne : NoEmptyName archive) (target : Bytes) :
    ∀ fuel off, off ≤ archive.length → archive.length - off < fuel →
      (stdScan archive target fuel off).Good (fun r => r.1 < 2^33 ∧ r.2 ≤ archive.length) := by
  intro fuel
  induction fuel with
  | zero => intro off _ h; omega
  | succ fuel ih =>
    intro off ho hf
    unfold stdScan
    refine (readHead_good hl ho hne).bind ?_
    rintro ⟨h, name, o⟩ ⟨h1, h2, h3, h4⟩
    simp only at h1 h2 h3 h4 ⊢
    have hp1 := cpioPadding_lt h.filesize
    have hp2 := cpioPadding_lt (110 + h.namesize)
    refine Out.Good.ite (fun _ => trivial) (fun _ => ?_)
    refine (archiveRead_good hl h2 (by omega)).bind ?_
    rintro ⟨_, o2⟩ ⟨_, g2, g3⟩
    simp only at g2
    subst g2
    refine Out.Good.ite (fun _ => ⟨by simp only; omega, g3⟩) (fun _ => ?_)
    refine (archiveRead_good hl g3 (by omega)).bind ?_
    rintro ⟨_, o3⟩ ⟨_, k2, k3⟩
    simp only at k2
    subst k2
    exact ih _ k3 (by omega)

/-- What `expand_sequence` guarantees of the places: the trailer comes last and has no content; the
    other entries belong to files, and their headers fit into the header buffer. -/
def PlacesOk (r : StdIn) : Prop :=
  0 < r.places.length ∧ ∀ k (p : CpioFile), r.places[k]? = some p → 0 < p.headerLen ∧
    match p.index with
    | none => p.contentLen = 0 ∧ p.headerLen ≤ (fillHeader none).length
    | some i => k + 1 < r.places.length ∧ ∃ f, r.files[i]? = some f ∧ p.headerLen ≤ (fillHeader (some f)).length

/-- The position in the old package is inside its tables. -/
structure StdInv (r : StdIn) (s : StdSrc) : Prop where
  arc : s.arcOff ≤ r.archive.length
  pos : s.pos ≤ r.places.length
  cur : 0 < s.left → ∃ p, 0 < s.pos ∧ r.places[s.pos - 1]? = some p ∧ s.left ≤ p.headerLen + p.contentLen ∧ p.headerLen ≤ s.hdr.length

theorem stdEmit_good {r : StdIn} (hl : r.archive.length < 2^63) (hp : PlacesOk r) {s : StdSrc} (hs : StdInv r s) {len : Nat}
    (hlen : 0 < len) (hb : len ≤ blockSize) :
    (stdEmit r s len).Good (fun x => StdInv r x.2 ∧ x.1.length ≤ len ∧ (0 < s.left → 0 < x.1.length) ∧ x.2.pos = s.pos) := by
  have hbs : blockSize = 8192 := rfl
  unfold stdEmit
  refine Out.Good.ite (fun h0 => ?_) (fun h0 => ⟨hs, Nat.zero_le _, fun h => absurd h h0, rfl⟩)
  obtain ⟨p, hp0, hpk, hle, hh⟩ := hs.cur h0
  rw [rd_eq_ok.2 hpk, Out.bind_ok]
  obtain ⟨_, hpi⟩ := hp.2 _ _ hpk
  have e1 : (stdHead p s len).Good (fun x => x.1.length ≤ len ∧ x.2.left + x.1.length = s.left ∧
      (x.1.length < len → x.2.left ≤ p.contentLen) ∧
      x.2.pos = s.pos ∧ x.2.arcOff = s.arcOff ∧ x.2.hdr = s.hdr) := by
    unfold stdHead
    refine Out.Good.ite (fun h1 => ?_) (fun h1 => ⟨Nat.zero_le _, rfl, fun _ => by simp only; omega, rfl, rfl, rfl⟩)
    refine (rdBlk_good (by omega)).bind ?_
    intro b hbl
    refine ⟨by simp only; omega, by simp only; omega, fun _ => by simp only at *; omega, rfl, rfl, rfl⟩
  refine e1.bind ?_
  rintro ⟨b1, s1⟩ ⟨f1, f2, f3, f4, f5, f6⟩
  simp only at f1 f2 f3 f4 f5 f6 ⊢
  have e2 : (stdBody r p s1 (len - b1.length)).Good (fun x => x.1.length ≤ len - b1.length ∧ x.2.left + x.1.length = s1.left ∧
      x.2.arcOff ≤ r.archive.length ∧ x.2.pos = s1.pos ∧ x.2.hdr = s1.hdr ∧ (0 < len - b1.length → 0 < s1.left → 0 < x.1.length)) := by
    unfold stdBody
    refine Out.Good.ite (fun h1 => ?_) (fun h1 => ⟨Nat.zero_le _, rfl, by simp only [f5]; exact hs.arc, rfl, rfl,
      fun a b => absurd ⟨a, b⟩ h1⟩)
    unfold stdContent
    have hcl : 0 < p.contentLen := by
      have := f3 (by omega)
      omega
    cases hi : p.index with
    | none =>
      rw [hi] at hpi
      simp only at hpi
      omega
    | some i =>
      rw [hi] at hpi
      obtain ⟨_, f, hf, _⟩ := hpi
      simp only
      rw [rd_eq_ok.2 hf, Out.bind_ok]
      refine Out.Good.ite (fun _ => ?_) (fun _ => ?_)
      · have : (strncpy s1.linkto (min (len - b1.length) s1.left)).length = min (len - b1.length) s1.left := by
          simp only [strncpy, List.length_append, List.length_take, zeros_length]
          omega
        refine ⟨by simp only [this]; omega, by simp only [this]; omega, by simp only [f5]; exact hs.arc, rfl, rfl,
          fun _ _ => by simp only [this]; omega⟩
      · refine (archiveRead_good hl (by rw [f5]; exact hs.arc) (by omega)).bind ?_
        rintro ⟨b, o⟩ ⟨g1, g2, g3⟩
        simp only at g1 g2
        subst g1 g2
        have := slice_length g3
        exact ⟨by simp only [this]; omega, by simp only [this]; omega, g3, rfl, rfl, fun _ _ => by simp only [this]; omega⟩
  refine e2.bind ?_
  rintro ⟨b2, s2⟩ ⟨g1, g2, g3, g4, g5, g6⟩
  simp only at g1 g2 g3 g4 g5 g6
  refine ⟨⟨g3, by simp only [g4, f4]; exact hs.pos, fun h => ⟨p, by simp only [g4, f4]; exact hp0, by
    simp only [g4, f4]; exact hpk, by simp only; omega, by simp only [g5, f6]; exact hh⟩⟩, by
    simp only [List.length_append]; omega, fun _ => ?_, by simp only [g4, f4]⟩
  simp only [List.length_append]
  by_cases hb1 : b1.length = 0
  · have := g6 (by omega) (by omega)
    omega
  · omega

theorem stdNext_good {r : StdIn} (hl : r.archive.length < 2^63) (hne : NoEmptyName r.archive) (hp : PlacesOk r) {s : StdSrc}
    (hs : StdInv r s) (he : stdAtEnd r s = .ok false) : (stdNext r s).Good (fun x => StdInv r x ∧ 0 < x.left) := by
  have hlt : s.pos < r.places.length := by
    by_cases h0 : s.pos = 0
    · rw [h0]; exact hp.1
    · have h1 := hs.pos
      have hk : s.pos - 1 < r.places.length := by omega
      unfold stdAtEnd at he
      rw [if_neg h0, rd_ok hk, Out.bind_ok] at he
      obtain ⟨_, hi⟩ := hp.2 _ _ (List.getElem?_eq_getElem hk)
      cases hx : r.places[s.pos - 1].index with
      | none => rw [hx] at he; cases he
      | some i =>
        rw [hx] at hi
        simp only at hi
        omega
  unfold stdNext
  rw [rd_ok hlt, Out.bind_ok]
  obtain ⟨hpos, hi⟩ := hp.2 _ _ (List.getElem?_eq_getElem hlt)
  generalize hgp : r.places[s.pos] = p at *
  have hgp' : r.places[s.pos + 1 - 1]? = some p := by
    rw [Nat.add_sub_cancel, List.getElem?_eq_getElem hlt, hgp]
  cases hx : p.index with
  | none =>
    rw [hx] at hi
    simp only at hi ⊢
    exact ⟨⟨hs.arc, hlt, fun _ => ⟨p, Nat.succ_pos _, hgp', Nat.le_refl _, hi.2⟩⟩, by simp only; omega⟩
  | some i =>
    rw [hx] at hi
    obtain ⟨_, f, hf, hh⟩ := hi
    simp only
    rw [rd_eq_ok.2 hf, Out.bind_ok]
    refine (stdScan_good hl hne _ _ _ hs.arc (by omega)).bind ?_
    rintro ⟨size, off⟩ ⟨g1, g2⟩
    simp only at g1 g2 ⊢
    have hpass : (stdPass r f p size off).Good (fun o => o ≤ r.archive.length) := by
      unfold stdPass
      refine Out.Good.ite (fun _ => ?_) (fun _ => Out.Good.ite (fun _ => trivial) (fun _ => g2))
      refine (archiveRead_good hl g2 (by omega)).bind ?_
      rintro ⟨_, o⟩ ⟨_, k2, k3⟩
      simp only at k2
      subst k2
      exact k3
    refine hpass.bind ?_
    intro o ho
    exact ⟨⟨ho, hlt, fun _ => ⟨p, Nat.succ_pos _, hgp', Nat.le_refl _, hh⟩⟩, by simp only; omega⟩

theorem stdAtEnd_good {r : StdIn} {s : StdSrc} (hs : StdInv r s) : ∃ e, stdAtEnd r s = .ok e := by
  unfold stdAtEnd
  split
  · exact ⟨_, rfl⟩
  · rw [rd_ok (by have := hs.pos; omega), Out.bind_ok]
    exact ⟨_, rfl⟩

theorem stdLoop_good {r : StdIn} (hl : r.archive.length < 2^63) (hne : NoEmptyName r.archive) (hp : PlacesOk r) :
    ∀ fuel (s : StdSrc) len acc, StdInv r s → 0 < len → len ≤ blockSize → (len + 1 < fuel ∨ (0 < s.left ∧ len < fuel)) →
      (stdLoop r fuel s len acc).Good (fun x => x.1.length = acc.length + len ∧ StdInv r x.2) := by
  intro fuel
  induction fuel with
  | zero => intro s len acc _ _ _ h; omega
  | succ fuel ih =>
    intro s len acc hs h0 hb hf
    unfold stdLoop
    refine (stdEmit_good hl hp hs h0 hb).bind ?_
    rintro ⟨b, s1⟩ ⟨h1, h2, h3, h4⟩
    simp only at h1 h2 h3 h4 ⊢
    obtain ⟨e, he⟩ := stdAtEnd_good h1
    rw [he, Out.bind_ok]
    refine Out.Good.ite (fun _ => ⟨by simp only [List.length_append, zeros_length]; omega, h1⟩) (fun hc => ?_)
    refine Out.Good.ite (fun hz => ⟨by simp only [List.length_append]; omega, h1⟩) (fun hz => ?_)
    have he' : e = false := by
      cases e with
      | false => rfl
      | true => exact absurd ⟨by omega, rfl⟩ hc
    subst he'
    refine (stdNext_good hl hne hp h1 he).bind ?_
    intro s2 ⟨h5, h6⟩
    refine (ih s2 (len - b.length) (acc ++ b) h5 (by omega) (by omega) (Or.inr ⟨h6, ?_⟩)).mono ?_
    · rcases hf with hf | ⟨hf1, hf2⟩
      · omega
      · have := h3 hf1
        omega
    · intro x hx
      refine ⟨?_, hx.2⟩
      rw [hx.1, List.length_append]
      omega

theorem stdStep_good {r : StdIn} (hl : r.archive.length < 2^63) (hne : NoEmptyName r.archive) (hp : PlacesOk r) {s : StdSrc}
    (hs : StdInv r s) : (stdStep r s).Good (fun x => x.1.length = blockSize ∧ StdInv r x.2) := by
  unfold stdStep
  refine (stdLoop_good hl hne hp _ s blockSize [] hs (by decide) (Nat.le_refl _) (Or.inl (by omega))).mono ?_
  intro x hx
  exact ⟨by rw [hx.1]; exact Nat.zero_add _, hx.2⟩

theorem StdInv.init (r : StdIn) : StdInv r StdSrc.init :=
  ⟨Nat.zero_le _, Nat.zero_le _, fun h => absurd h (Nat.lt_irrefl 0)⟩

/-- The position in the old package of an rpm-only delta. -/
def RoInv (header archive : Bytes) (s : RpmonlySrc) : Prop := s.hdrOff ≤ header.length ∧ s.arcOff ≤ archive.length

theorem rpmonlyStep_good {header archive : Bytes} (hl : archive.length < 2^63) {s : RpmonlySrc} (hs : RoInv header archive s) :
    (rpmonlyStep header archive s).Good (fun x => x.1.length = blockSize ∧ RoInv header archive x.2) := by
  have hbs : blockSize = 8192 := rfl
  obtain ⟨h1, h2⟩ := hs
  unfold rpmonlyStep
  simp only
  have hb : (rpmonlyBytes header archive s (min s.left blockSize)).Good (fun x => x.1.length = min s.left blockSize ∧
      x.2.1 ≤ header.length ∧ x.2.2 ≤ archive.length) := by
    unfold rpmonlyBytes
    refine Out.Good.ite (fun c1 => Out.Good.ite (fun c2 => ?_) (fun c2 => ?_)) (fun c1 => ?_)
    · refine (archiveRead_good hl h2 (by omega)).bind ?_
      rintro ⟨b, o⟩ ⟨g1, g2, g3⟩
      simp only at g1 g2
      subst g1 g2
      refine (rdBlk_good (by omega)).bind ?_
      intro h hh
      refine ⟨?_, Nat.le_refl _, g3⟩
      simp only [List.length_append, slice_length g3, hh]
      omega
    · refine (rdBlk_good (by omega)).bind ?_
      intro h hh
      exact ⟨hh, by simp only; omega, h2⟩
    · refine (archiveRead_good hl h2 (by omega)).bind ?_
      rintro ⟨b, o⟩ ⟨g1, g2, g3⟩
      simp only at g1 g2
      subst g1 g2
      exact ⟨slice_length g3, h1, g3⟩
  refine hb.bind ?_
  rintro ⟨b, ho, ao⟩ ⟨g1, g2, g3⟩
  simp only at g1 g2 g3 ⊢
  refine ⟨?_, g2, g3⟩
  simp only [List.length_append, List.length_replicate]
  omega

end Drpm
