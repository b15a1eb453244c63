import Verif.CacheMay
import Verif.OpenFilesLemmas
import Verif.PrelinkFill
/-!
# Blocks made from installed files are defined, whatever the files contain
-/

namespace Drpm

/-- What the layout must be: entries one after the other from offset 0, then the trailer; the files that
    may have to be opened have a number that is the number of an entry; whether a file was changed by
    prelink can be found out. -/
structure Layout (r : FsIn) (n : Nat) : Prop where
  length : r.places.length = n + 1
  last : ∀ p, r.places[n]? = some p → p.index = none ∧ p.headerLen = (fillHeader none).length
  entry : ∀ k, k < n → ∃ i f o, r.places[k]? = some (seqPlace i f o) ∧ r.files[i]? = some f ∧ f.Fits
  next : ∀ (k : Nat) p q, r.places[k]? = some p → r.places[k + 1]? = some q → q.offset = p.offset + p.headerLen + p.contentLen
  openable : ∀ (k i : Nat) f o, r.places[k]? = some (seqPlace i f o) → r.files[i]? = some f → isReg f = true → 0 < f.size → i < n
  first : ∀ p, r.places[0]? = some p → p.offset = 0
  asked : ∀ f ∈ r.files, ∀ d, r.disk.get f.name = some d → (openedPrelinked f d).Good (fun _ => True)

/-- The file was changed by prelink. -/
def IsPre (r : FsIn) (f : FileInfo) : Prop := ∃ d, r.disk.get f.name = some d ∧ openedPrelinked f d = .ok true

/-- The file that is opened for file number `i` (that of entry number `i`) was changed by prelink. -/
def OpensPre (r : FsIn) (i : Nat) : Prop :=
  ∃ j f o, r.places[i]? = some (seqPlace j f o) ∧ r.files[j]? = some f ∧ IsPre r f

/-- The list of open files is not empty once there is an object. -/
def OpenInv (s : FsSt) : Prop := 0 < s.count → s.order ≠ []

/-- The header buffer is that of entry `k`. -/
structure HdrInv (r : FsIn) (n : Nat) (s : FsSt) (k : Nat) : Prop where
  idx : s.idx = some k
  le : k ≤ n
  hdr : ∀ p, r.places[k]? = some p → p.headerLen ≤ s.hdr.length

variable {r : FsIn} {n : Nat}

theorem addOpen_good {s : FsSt} (h : OpenInv s) (i : Nat) (name data : Bytes) :
    (addOpen s i name data).Good (fun s' => OpenInv s' ∧ s'.idx = s.idx ∧ s'.hdr = s.hdr ∧ ∃ a, s'.tab i = some a) := by
  unfold addOpen
  refine Out.Good.ite (fun _ => ?_) (fun hc => ?_)
  · exact ⟨fun _ => by simp, rfl, rfl, s.count, by simp⟩
  · have hne := h (by unfold maxOpen at hc; omega)
    cases ho : s.order with
    | nil => exact absurd ho hne
    | cons a rest => exact ⟨fun _ => by simp, rfl, rfl, a, by simp⟩

theorem needOpen_good (hl : Layout r n) {s : FsSt} (h : OpenInv s) {i : Nat} (hi : i < n) :
    (needOpen r s i).Good (fun x => OpenInv x.2 ∧ x.2.idx = s.idx ∧ x.2.hdr = s.hdr ∧ (x.1 = none → OpensPre r i)) := by
  have hlt : i < r.places.length := by rw [hl.length]; omega
  unfold needOpen getOpen
  rw [if_pos hlt]
  cases ht : s.tab i with
  | some a => exact ⟨fun _ => by simp, rfl, rfl, fun h => by cases h⟩
  | none =>
    simp only [Out.bind_ok]
    have hnew : (openNew r s i).Good (fun x => OpenInv x.2 ∧ x.2.idx = s.idx ∧ x.2.hdr = s.hdr ∧
        ((x.1 = true ∧ OpensPre r i) ∨ (x.1 = false ∧ ∃ a, x.2.tab i = some a))) := by
      unfold openNew
      obtain ⟨j, f, o, p1, p2, p3⟩ := hl.entry i hi
      rw [rd_eq_ok.mpr p1, Out.bind_ok]
      show Out.Good _ (rd r.files j >>= _)
      rw [rd_eq_ok.mpr p2, Out.bind_ok]
      cases hg : r.disk.get f.name with
      | none => trivial
      | some d =>
        simp only
        have hq := hl.asked f (List.mem_of_getElem? p2) d hg
        cases ho : openedPrelinked f d with
        | ok b =>
          rw [Out.bind_ok]
          cases b with
          | true =>
            rw [if_pos rfl]
            exact ⟨h, rfl, rfl, Or.inl ⟨rfl, j, f, o, p1, p2, d, hg, ho⟩⟩
          | false =>
            rw [if_neg (by decide)]
            refine (addOpen_good h i f.name d).bind ?_
            rintro s' ⟨q1, q2, q3, q4⟩
            exact ⟨q1, q2, q3, Or.inr ⟨rfl, q4⟩⟩
        | err e => trivial
        | ub => rw [ho] at hq; exact hq.elim
        | loop => rw [ho] at hq; exact hq.elim
    refine hnew.bind ?_
    rintro ⟨pre, s1⟩ ⟨q1, q2, q3, q4⟩
    simp only at q1 q2 q3 q4 ⊢
    rcases q4 with ⟨rfl, q4⟩ | ⟨rfl, a, q4⟩
    · rw [if_pos rfl]
      exact ⟨q1, q2, q3, fun _ => q4⟩
    · rw [if_neg (by decide), if_pos hlt, q4]
      exact ⟨fun _ => by simp, q2, q3, fun h => by cases h⟩

theorem fsFile_good (hl : Layout r n) {s : FsSt} (h : OpenInv s) {i : Nat} (hi : i < n) (f : FileInfo) {fileOff len : Nat}
    (hlt : fileOff < f.size) (hpos : 0 < len) :
    (fsFile r s i f fileOff len).Good (fun g => (∃ s', g = .prelinked s' ∧ OpenInv s' ∧ OpensPre r i) ∨
      ∃ b s', g = .bytes b s' ∧ 0 < b.length ∧ b.length ≤ len ∧
      b.length ≤ f.size - fileOff ∧ OpenInv s' ∧ s'.idx = s.idx ∧ s'.hdr = s.hdr) := by
  unfold fsFile
  refine (needOpen_good hl h hi).bind ?_
  rintro ⟨x, s1⟩ ⟨q1, q2, q3, q4⟩
  simp only at q1 q2 q3 q4 ⊢
  cases x with
  | none => exact Or.inl ⟨s1, rfl, q1, q4 rfl⟩
  | some a =>
  simp only
  unfold readOpen
  simp only
  generalize (if (s1.slot a).offset ≠ fileOff then fileOff else (s1.slot a).pos) = pos
  by_cases hb : (slice (s1.slot a).data pos (min len (f.size - fileOff))).length ≠ min len (f.size - fileOff)
  · rw [if_pos hb]; trivial
  · rw [if_neg hb]
    have hb' : (slice (s1.slot a).data pos (min len (f.size - fileOff))).length = min len (f.size - fileOff) := by omega
    exact Or.inr ⟨slice (s1.slot a).data pos (min len (f.size - fileOff)), _, rfl, by omega, by omega, by omega, q1, q2, q3⟩

theorem fsContent_good (hl : Layout r n) {s : FsSt} (h : OpenInv s) {k i : Nat} {f : FileInfo} {o : Nat}
    (hp : r.places[k]? = some (seqPlace i f o)) (hf : r.files[i]? = some f) (hfit : f.Fits) {fileOff len : Nat}
    (hfo : fileOff < (seqPlace i f o).contentLen) (hlen : 0 < len) :
    (fsContent r s (seqPlace i f o) i fileOff len).Good (fun g =>
      (∃ s', g = .prelinked s' ∧ OpenInv s' ∧ OpensPre r i ∧ isReg f = true ∧ fileOff < f.size) ∨
      ∃ b s', g = .bytes b s' ∧ 0 < b.length ∧ b.length ≤ len ∧
      b.length ≤ (seqPlace i f o).contentLen - fileOff ∧ OpenInv s' ∧ s'.idx = s.idx ∧ s'.hdr = s.hdr) := by
  unfold fsContent
  rw [rd_eq_ok.mpr hf, Out.bind_ok]
  refine Out.Good.ite (fun _ => ?_) (fun hlk => Out.Good.ite (fun hlt => ?_) (fun _ => ?_))
  · refine Out.Good.ite (fun _ => ?_) (fun _ => ?_)
    · exact Or.inr ⟨_, s, rfl, by rw [zeros_length]; omega, by rw [zeros_length]; omega, by rw [zeros_length]; omega, h, rfl, rfl⟩
    · have hs : (strncpy (s.linkto.drop fileOff) (min len ((seqPlace i f o).contentLen - fileOff))).length =
          min len ((seqPlace i f o).contentLen - fileOff) := by
        unfold strncpy
        rw [List.length_append, zeros_length, List.length_take]; omega
      exact Or.inr ⟨_, s, rfl, by omega, by omega, by omega, h, rfl, rfl⟩
  · have hreg : isReg f = true := by
      cases hr : isReg f with
      | true => rfl
      | false =>
        exfalso
        have : (seqPlace i f o).contentLen = 0 := by
          unfold seqPlace seqFilesize
          simp only
          rw [if_neg (by rw [hr]; decide), if_neg hlk]
          rfl
        omega
    have hcl : (seqPlace i f o).contentLen = f.size + cpioPadding f.size := by
      unfold seqPlace seqFilesize
      simp only
      rw [if_pos hreg]
      have := cpioPadding_lt f.size
      have := hfit.size
      omega
    refine (fsFile_good hl h (hl.openable k i f o hp hf hreg (by omega)) f hlt hlen).mono ?_
    rintro g (⟨s', q1, q2, q3⟩ | ⟨b, s', q1, q2, q3, q4, q5⟩)
    · exact Or.inl ⟨s', q1, q2, q3, hreg, hlt⟩
    · exact Or.inr ⟨b, s', q1, q2, q3, by omega, q5⟩
  · exact Or.inr ⟨_, s, rfl, by rw [zeros_length]; omega, by rw [zeros_length]; omega, by rw [zeros_length]; omega, h, rfl, rfl⟩

theorem seqPlace_headerLen {f : FileInfo} (h : f.Fits) (i o : Nat) : (fillHeader (some f)).length = (seqPlace i f o).headerLen ∧
    110 ≤ (seqPlace i f o).headerLen := by
  rw [fillHeader_some h, alteredHeader_length]
  exact ⟨rfl, by show 110 ≤ 110 + (relName f).length + 3 + _; omega⟩

theorem loadHeader_good (hl : Layout r n) {s : FsSt} (h : OpenInv s) {k : Nat} (hk : k ≤ n) :
    (loadHeader r s k).Good (fun s' => OpenInv s' ∧ HdrInv r n s' k) := by
  unfold loadHeader
  have hlt : k < r.places.length := by rw [hl.length]; omega
  by_cases hkn : k = n
  · subst hkn
    obtain ⟨p, hp⟩ : ∃ p, r.places[k]? = some p := ⟨_, List.getElem?_eq_getElem hlt⟩
    obtain ⟨h1, h2⟩ := hl.last p hp
    rw [rd_eq_ok.mpr hp, Out.bind_ok, h1]
    exact ⟨h, rfl, Nat.le_refl _, fun q hq => by rw [hp] at hq; cases hq; exact Nat.le_of_eq h2⟩
  · obtain ⟨i, f, o, p1, p2, p3⟩ := hl.entry k (by omega)
    rw [rd_eq_ok.mpr p1, Out.bind_ok]
    show Out.Good _ (rd r.files i >>= _)
    rw [rd_eq_ok.mpr p2, Out.bind_ok]
    refine ⟨h, rfl, hk, fun q hq => ?_⟩
    rw [p1] at hq
    cases hq
    exact Nat.le_of_eq (seqPlace_headerLen p3 i o).1.symm

/-- Rounds still needed in entry `k` that ends at `e`. -/
def rounds (n k e off len : Nat) : Nat := 2 * len + (if k < n ∧ e ≤ off then 1 else 0) + 1

/-- The block is left to `fillblock_prelink`, because of entry `k`: some of its contents is between
    `lo` and `hi`. -/
def LeftPre (r : FsIn) (lo hi k : Nat) : Prop :=
  ∃ i f o off, r.places[k]? = some (seqPlace i f o) ∧ r.files[i]? = some f ∧ f.Fits ∧ isReg f = true ∧ OpensPre r i ∧
    o + (seqPlace i f o).headerLen ≤ off ∧ off < o + (seqPlace i f o).headerLen + f.size ∧ lo ≤ off ∧ off < hi

/-- What a block may turn out to be. -/
def BlockRes (r : FsIn) (n lo hi len : Nat) (x : FsRes × FsSt) : Prop :=
  (∃ b, x.1 = .block b ∧ b.length = len ∧ OpenInv x.2 ∧ ∃ k', HdrInv r n x.2 k') ∨
  (∃ k, x.1 = .prelink k ∧ OpenInv x.2 ∧ x.2.idx = none ∧ LeftPre r lo hi k)

theorem fsLoop_good (hl : Layout r n) : ∀ (fuel : Nat) (s : FsSt) (k off len : Nat) (acc : Bytes) (p : CpioFile),
    OpenInv s → HdrInv r n s k → r.places[k]? = some p → p.offset ≤ off →
    (k < n → off ≤ p.offset + p.headerLen + p.contentLen) →
    rounds n k (p.offset + p.headerLen + p.contentLen) off len ≤ fuel →
    (fsLoop r fuel s k off len acc).Good (BlockRes r n off (off + len) (acc.length + len)) := by
  intro fuel
  induction fuel with
  | zero => intro s k off len acc p _ _ _ _ _ h; unfold rounds at h; omega
  | succ fuel ih =>
    intro s k off len acc p ho hh hp hge hle hfu
    have hflag : 2 * len + 1 ≤ fuel + 1 := by unfold rounds at hfu; split at hfu <;> omega
    have hnext : ∀ k e off m, 0 < m → m ≤ len → rounds n k e off (len - m) ≤ fuel := by
      intro k e off m h1 h2; unfold rounds; split <;> omega
    rw [fsLoop]
    have hless : ∀ off' len' m, off ≤ off' → off' + len' ≤ off + len → m + len' = acc.length + len → ∀ x,
        BlockRes r n off' (off' + len') (m + len') x → BlockRes r n off (off + len) (acc.length + len) x := by
      rintro off' len' m h1 h2 h3 x (⟨b, b1, b2, b3⟩ | ⟨j, b1, b2, b3, i, f, o, w, c1, c2, c3, c4, c5, c6, c7, c8, c9⟩)
      · exact Or.inl ⟨b, b1, by omega, b3⟩
      · exact Or.inr ⟨j, b1, b2, b3, i, f, o, w, c1, c2, c3, c4, c5, c6, c7, by omega, by omega⟩
    refine Out.Good.ite (fun hz => Or.inl ⟨acc, rfl, by omega, ho, k, hh⟩) (fun hz => ?_)
    rw [rd_eq_ok.mpr hp, Out.bind_ok]
    refine Out.Good.ite (fun hhd => ?_) (fun hhd => ?_)
    · have := hh.hdr p hp
      refine (rdBlk_good (by omega)).bind ?_
      intro b hb
      refine (ih s k _ _ (acc ++ b) p ho hh hp (by omega) (fun hk => by have := hle hk; omega) (hnext _ _ _ _ (by omega) (by omega))).mono ?_
      exact hless _ _ _ (by omega) (by omega) (by rw [List.length_append]; omega)
    · by_cases hkn : k = n
      · subst hkn
        rw [(hl.last p hp).1]
        exact Or.inl ⟨_, rfl, by rw [List.length_append, zeros_length], ho, k, hh⟩
      · have hkl : k < n := by have := hh.le; omega
        obtain ⟨i, f, o, p1, p2, p3⟩ := hl.entry k hkl
        rw [hp] at p1
        cases p1
        have hidx : (seqPlace i f o).index = some i := rfl
        rw [hidx]
        simp only
        refine Out.Good.ite (fun hc => ?_) (fun hc => ?_)
        · refine (fsContent_good hl ho hp p2 p3 (fileOff := off - ((seqPlace i f o).offset + (seqPlace i f o).headerLen)) (by omega) (by omega)).bind ?_
          rintro _ (⟨s', rfl, q1, q2, q3, q4⟩ | ⟨b, s', rfl, q1, q2, q3, q4, q5, q6⟩)
          · have h1 : (seqPlace i f o).offset = o := rfl
            exact Or.inr ⟨k, rfl, q1, rfl, i, f, o, off, hp, p2, p3, q3, q2, by omega, by omega, Nat.le_refl _, by omega⟩
          simp only
          refine (ih s' k _ _ (acc ++ b) _ q4 ⟨by rw [q5]; exact hh.idx, hh.le, by rw [q6]; exact hh.hdr⟩ hp (by omega)
            (fun hk => by have := hle hk; omega) (hnext _ _ _ _ (by omega) (by omega))).mono ?_
          exact hless _ _ _ (by omega) (by omega) (by rw [List.length_append]; omega)
        · refine (loadHeader_good hl ho (k := k + 1) (by omega)).bind ?_
          rintro s1 ⟨w1, w2⟩
          obtain ⟨q, hq⟩ : ∃ q, r.places[k + 1]? = some q := ⟨_, List.getElem?_eq_getElem (by rw [hl.length]; omega)⟩
          have hqo := hl.next k _ q hp hq
          have hoff := hle hkl
          refine ih s1 (k + 1) off len acc q w1 w2 hq (by omega) (fun _ => by omega) ?_
          unfold rounds at hfu ⊢
          rw [if_pos ⟨hkl, by omega⟩] at hfu
          rw [if_neg]
          · omega
          · rintro ⟨hk1, hbad⟩
            obtain ⟨i', f', o', e1, _, e3⟩ := hl.entry (k + 1) hk1
            rw [hq] at e1
            cases e1
            have := (seqPlace_headerLen e3 i' o').2
            omega

theorem walkBack_good (hl : Layout r n) (off : Nat) : ∀ j, j ≤ n → (walkBack r.places off j).Good (fun i => i ≤ n) := by
  intro j
  induction j with
  | zero => intro _; exact Nat.zero_le _
  | succ j ih =>
    intro hj
    unfold walkBack
    rw [rd_ok (by rw [hl.length]; omega), Out.bind_ok]
    exact Out.Good.ite (fun _ => ih (by omega)) (fun _ => hj)

theorem findEntry_good (off : Nat) (places : List CpioFile) : ∀ i, i ≤ places.length →
    (findEntry off (places.drop i) i).Good (fun k => ∃ p, places[k]? = some p ∧ p.offset ≤ off ∧
      off < p.offset + p.headerLen + p.contentLen) := by
  have : ∀ l i, l = places.drop i → i ≤ places.length → (findEntry off l i).Good (fun k => ∃ p, places[k]? = some p ∧ p.offset ≤ off ∧
      off < p.offset + p.headerLen + p.contentLen) := by
    intro l
    induction l with
    | nil => intro i _ _; trivial
    | cons c cs ih =>
      intro i h hle
      have hc : places[i]? = some c := by
        have := congrArg (fun l => l[0]?) h
        simpa using this.symm
      have hlt := (List.getElem?_eq_some_iff.mp hc).1
      unfold findEntry
      refine Out.Good.ite (fun hh => ⟨c, hc, hh.1, hh.2⟩) (fun _ => ih (i + 1) ?_ (by omega))
      rw [drop_of_get hc] at h
      exact (List.cons.inj h).2
  intro i hi
  exact this _ i rfl hi

/-- The state between two blocks. -/
def SafeInv (r : FsIn) (n : Nat) (s : FsSt) : Prop := OpenInv s ∧ (s.idx = none ∨ ∃ k, HdrInv r n s k)

theorem SafeInv.init (r : FsIn) (n : Nat) : SafeInv r n FsSt.init := ⟨(fun h => absurd h (Nat.lt_irrefl 0)), Or.inl rfl⟩

/-- Any block, in any state. -/
theorem fsBlock_good (hl : Layout r n) {s : FsSt} (hs : SafeInv r n s) (id : Nat) :
    (fsBlock r s id).Good (fun x => SafeInv r n x.2 ∧ ((∃ b, x.1 = .block b ∧ b.length = blockSize) ∨
      ∃ k, x.1 = .prelink k ∧ LeftPre r (id * blockSize) (id * blockSize + blockSize) k)) := by
  obtain ⟨ho, hi⟩ := hs
  have hge : s.idx.getD 0 ≤ n := by
    rcases hi with hi | ⟨k, hi⟩
    · rw [hi]; exact Nat.zero_le _
    · rw [hi.idx]; exact hi.le
  unfold fsBlock
  simp only
  refine (walkBack_good hl _ _ hge).bind ?_
  intro i hi'
  refine (findEntry_good _ r.places i (by rw [hl.length]; omega)).bind ?_
  rintro k ⟨p, hp, h1, h2⟩
  have hk : k ≤ n := by have := (List.getElem?_eq_some_iff.mp hp).1; rw [hl.length] at this; omega
  have hent : (enterEntry r s k).Good (fun s' => OpenInv s' ∧ HdrInv r n s' k) := by
    unfold enterEntry
    refine Out.Good.ite (fun he => ⟨ho, ?_⟩) (fun _ => loadHeader_good hl ho hk)
    rcases hi with hi | ⟨k', hi⟩
    · rw [hi] at he; cases he
    · have := hi.idx
      rw [he] at this
      cases this
      exact hi
  refine hent.bind ?_
  rintro s1 ⟨w1, w2⟩
  refine (fsLoop_good hl (2 * blockSize + 2) s1 k _ blockSize [] p w1 w2 hp h1 (fun _ => by omega) (by
    unfold rounds; split <;> omega)).mono ?_
  rintro x (⟨b, b1, b2, b3, b4⟩ | ⟨k, b1, b2, b3, b4⟩)
  · exact ⟨⟨b3, Or.inr b4⟩, Or.inl ⟨b, b1, by simpa using b2⟩⟩
  · exact ⟨⟨b2, Or.inl b3⟩, Or.inr ⟨k, b1, b4⟩⟩

end Drpm
