import Verif.InstalledSafe
import Verif.PrelinkFillLemmas
/-!
# Blocks with prelinked files are defined, whatever the files contain

As in `InstalledSafe`, the files may have any contents and any length, and may be missing; also what
undoing prelink yields may have any length.
-/

namespace Drpm

variable {r : FsIn} {n : Nat}

/-- What is needed in addition if some file was changed by prelink. -/
structure PreLayout (r : FsIn) (n nblk : Nat) : Prop where
  /-- undoing prelink works or fails -/
  undone : ∀ f ∈ r.files, (r.disk.undo f.name).Good (fun _ => True)
  /-- for the numbers of files the right files are opened -/
  numbers : ∀ (k i : Nat) f o, r.places[k]? = some (seqPlace i f o) → r.files[i]? = some f → isReg f = true → 0 < f.size →
    ∃ o', r.places[i]? = some (seqPlace i f o')
  /-- no block begins inside the target of a link -/
  links : ∀ (k i : Nat) f o j, r.places[k]? = some (seqPlace i f o) → r.files[i]? = some f → isLnk f = true →
    ¬ (o + (seqPlace i f o).headerLen < 8192 * j ∧ 8192 * j < o + (seqPlace i f o).headerLen + f.linkto.length)
  /-- the blocks that begin inside a file that prelink changed are blocks of the delta's tables -/
  inside : ∀ (k i : Nat) f o j, r.places[k]? = some (seqPlace i f o) → r.files[i]? = some f → isReg f = true → IsPre r f →
    o + (seqPlace i f o).headerLen < 8192 * j → 8192 * j < o + (seqPlace i f o).headerLen + f.size → j < nblk

/-! ## Lengths -/

/-- The length of the content of an entry. -/
def contLen (f : FileInfo) : Nat := (seqPlace 0 f 0).contentLen
/-- The length of its header. -/
def headLen (f : FileInfo) : Nat := (seqPlace 0 f 0).headerLen

theorem headLen_four (f : FileInfo) : 4 ∣ headLen f := four_pad _

theorem headLen_ge (f : FileInfo) : 110 ≤ headLen f := by
  show 110 ≤ 110 + (relName f).length + 3 + _
  omega

theorem contLen_reg {f : FileInfo} (hf : f.Fits) (h : isReg f = true) : contLen f = f.size + cpioPadding f.size := by
  unfold contLen seqPlace seqFilesize
  simp only
  rw [if_pos h]
  have := cpioPadding_lt f.size
  have := hf.size
  omega

theorem contLen_lnk {f : FileInfo} (hf : f.Fits) (h : isLnk f = true) : contLen f = f.linkto.length + cpioPadding f.linkto.length := by
  unfold contLen seqPlace seqFilesize
  simp only
  have h1 := hf.linkto
  have h2 := cpioPadding_lt f.linkto.length
  rw [if_neg (lnk_not_reg h), if_pos h, Nat.mod_eq_of_lt (show f.linkto.length < 2^32 by omega)]
  omega

theorem contLen_other {f : FileInfo} (h1 : isReg f ≠ true) (h2 : isLnk f ≠ true) : contLen f = 0 := by
  unfold contLen seqPlace seqFilesize
  simp only
  rw [if_neg h1, if_neg h2]
  rfl

theorem contLen_four {f : FileInfo} (hf : f.Fits) : 4 ∣ contLen f := by
  by_cases h1 : isReg f = true
  · rw [contLen_reg hf h1]; exact four_pad _
  · by_cases h2 : isLnk f = true
    · rw [contLen_lnk hf h2]; exact four_pad _
    · rw [contLen_other h1 h2]; exact ⟨0, rfl⟩

/-- Entry `k` is file `i`, which is `f`, at offset `o`. -/
structure Ent (r : FsIn) (k i : Nat) (f : FileInfo) (o : Nat) : Prop where
  place : r.places[k]? = some (seqPlace i f o)
  file : r.files[i]? = some f
  fits : f.Fits

theorem Layout.ent (hl : Layout r n) {k : Nat} (hk : k < n) : ∃ i f o, Ent r k i f o := by
  obtain ⟨i, f, o, h1, h2, h3⟩ := hl.entry k hk
  exact ⟨i, f, o, h1, h2, h3⟩

theorem Ent.inj {k i j : Nat} {f g : FileInfo} {o p : Nat} (h : Ent r k i f o) (h' : Ent r k j g p) : i = j ∧ f = g ∧ o = p := by
  have e := h.place.symm.trans h'.place
  have e1 : some i = some j := congrArg CpioFile.index (Option.some.inj e)
  have e2 : o = p := congrArg CpioFile.offset (Option.some.inj e)
  cases e1
  have e3 := h.file.symm.trans h'.file
  cases e3
  exact ⟨rfl, rfl, e2⟩

theorem Layout.four (hl : Layout r n) : ∀ (k : Nat) p, r.places[k]? = some p → 4 ∣ p.offset := by
  intro k
  induction k with
  | zero => intro p hp; rw [hl.first p hp]; exact ⟨0, rfl⟩
  | succ k ih =>
    intro p hp
    have hlt := (List.getElem?_eq_some_iff.mp hp).1
    rw [hl.length] at hlt
    obtain ⟨i, f, o, h⟩ := hl.ent (show k < n by omega)
    have h1 := ih _ h.place
    have h2 := hl.next k _ _ h.place hp
    have h3 : (seqPlace i f o).headerLen = headLen f := rfl
    have h4 : (seqPlace i f o).contentLen = contLen f := rfl
    have h5 := headLen_four f
    have h6 := contLen_four h.fits
    omega

/-- The next entry begins where this one ends. -/
theorem Layout.after (hl : Layout r n) {k i : Nat} {f : FileInfo} {o : Nat} (h : Ent r k i f o) {q : CpioFile}
    (hq : r.places[k + 1]? = some q) : q.offset = o + headLen f + contLen f := hl.next k _ _ h.place hq

theorem Layout.placeAt (hl : Layout r n) {k : Nat} (hk : k ≤ n) : ∃ p, r.places[k]? = some p :=
  ⟨_, List.getElem?_eq_getElem (by rw [hl.length]; omega)⟩

/-- Entries before another one end before it begins. -/
theorem Layout.before (hl : Layout r n) {k i : Nat} {f : FileInfo} {o : Nat} (h : Ent r k i f o) :
    ∀ (m : Nat), k + 1 + m ≤ n → ∀ q, r.places[k + 1 + m]? = some q → o + headLen f + contLen f ≤ q.offset := by
  intro m
  induction m with
  | zero => intro _ q hq; rw [hl.after h hq]; exact Nat.le_refl _
  | succ m ih =>
    intro hm q hq
    obtain ⟨i', f', o', h'⟩ := hl.ent (show k + 1 + m < n by omega)
    have h1 := ih (by omega) _ h'.place
    have h2 := hl.after h' hq
    have h3 : (seqPlace i' f' o').offset = o' := rfl
    omega

/-! ## One block -/

/-- The state at offset `off` of a block. -/
structure PlSafe (r : FsIn) (n E off : Nat) (s : PlSt) : Prop where
  le : s.k ≤ n
  here : ∀ p, r.places[s.k]? = some p → p.offset ≤ off
  upTo : ∀ i f o, Ent r s.k i f o → off ≤ o + headLen f + contLen f
  fdOk : ∀ d q, s.fd = some (d, q) → ∃ i f o, Ent r s.k i f o ∧ isReg f = true ∧ o + headLen f ≤ off ∧
    (o + headLen f + contLen f ≤ E ∨ (s.pre = some true ∧ IsPre r f) ∨ s.pre = some false)
  link : ∀ i f o, Ent r s.k i f o → isLnk f = true → off ≤ o + headLen f ∨ o + headLen f + contLen f ≤ off ∨ 8192 ∣ off

/-- An open descriptor is not at the end of the file. -/
def PlOpenEnd (r : FsIn) (off : Nat) (s : PlSt) : Prop :=
  ∀ d q, s.fd = some (d, q) → ∀ i f o, Ent r s.k i f o → o + headLen f < off ∧ off < o + headLen f + f.size

/-- Before the end of the trailer. -/
def NotPast (r : FsIn) (n off : Nat) : Prop := ∀ p, r.places[n]? = some p → off < p.offset + p.headerLen + p.contentLen

/-- Whether `off` is still inside the entry. -/
def InsideEnt (r : FsIn) (off k : Nat) : Prop := ∀ p, r.places[k]? = some p → off < p.offset + p.headerLen + p.contentLen

theorem plSkip_good (hl : Layout r n) {E off : Nat} {s : PlSt} (hs : PlSafe r n E off s) (hb : NotPast r n off) :
    (plSkip r.places off r.places.length s).Good (fun s' => PlSafe r n E off s' ∧ InsideEnt r off s'.k) := by
  have hn : r.places.length = n + 1 := hl.length
  rw [hn, plSkip]
  obtain ⟨p, hp⟩ := hl.placeAt hs.le
  rw [rd_eq_ok.mpr hp, Out.bind_ok]
  refine Out.Good.ite (fun hc => ?_) (fun hc => ⟨hs, fun q hq => by rw [hp] at hq; cases hq; omega⟩)
  rcases Nat.lt_or_ge s.k n with hlt | hge
  · obtain ⟨i, f, o, h⟩ := hl.ent hlt
    have hup := hs.upTo i f o h
    rw [h.place] at hp
    cases hp
    have h3 : (seqPlace i f o).headerLen = headLen f := rfl
    have h4 : (seqPlace i f o).contentLen = contLen f := rfl
    have h5 : (seqPlace i f o).offset = o := rfl
    rw [h3, h4, h5] at hc
    obtain ⟨q, hq⟩ := hl.placeAt (show s.k + 1 ≤ n by omega)
    have hqo := hl.after h hq
    obtain ⟨m, hm⟩ : ∃ m, n = m + 1 := ⟨n - 1, by omega⟩
    rw [hm, plSkip]
    simp only
    rw [rd_eq_ok.mpr hq, Out.bind_ok]
    have hq1 : ¬ off ≥ q.offset + q.headerLen + q.contentLen := by
      rcases Nat.lt_or_ge (s.k + 1) n with h6 | h6
      · obtain ⟨i', f', o', h'⟩ := hl.ent h6
        rw [h'.place] at hq
        cases hq
        have : 110 ≤ (seqPlace i' f' o').headerLen := headLen_ge f'
        omega
      · have e : s.k + 1 = n := by omega
        rw [e] at hq
        have := hb q hq
        omega
    rw [if_neg hq1]
    refine ⟨⟨by simp only; omega, ?_, ?_, ?_, ?_⟩, ?_⟩
    · intro p hp; simp only at hp; rw [hq] at hp; cases hp; omega
    · intro i' f' o' h'
      have e := h'.place
      simp only at e
      rw [hq] at e
      cases e
      have : (seqPlace i' f' o').offset = o' := rfl
      omega
    · intro d w h; cases h
    · intro i' f' o' h' _
      have e := h'.place
      simp only at e
      rw [hq] at e
      cases e
      have : (seqPlace i' f' o').offset = o' := rfl
      left
      omega
    · intro p hp; simp only at hp; rw [hq] at hp; cases hp; omega
  · have e : s.k = n := by have := hs.le; omega
    rw [e] at hp
    have := hb p hp
    omega

theorem plLink_good {f : FileInfo} (hf : f.Fits) (hl : isLnk f = true) {cpio : CpioFile} (hc : cpio.contentLen = contLen f)
    {fileOff len : Nat} (hfo : fileOff < contLen f) (hsafe : fileOff = 0 ∨ f.linkto.length < fileOff) (hlen : 0 < len) :
    (plLink f cpio fileOff len).Good (fun b => b.length = min len (contLen f - fileOff)) := by
  have hcl := contLen_lnk hf hl
  unfold plLink plTarget
  simp only
  refine Out.Good.bind (P := fun b => b.length = min len (if f.linkto.length < fileOff then 0 else f.linkto.length)) ?_ ?_
  · refine Out.Good.ite (fun h => by rw [h]; rfl) (fun h => ?_)
    refine rdBlk_good ?_
    rw [List.length_append, List.length_singleton]
    rcases hsafe with rfl | hgt
    · rw [if_neg (by omega)]; omega
    · rw [if_pos hgt] at h; omega
  · intro b hb
    show (b ++ zeros _).length = _
    rw [List.length_append, zeros_length, hb, hc]
    rcases hsafe with rfl | hgt
    · rw [if_neg (by omega)]; omega
    · rw [if_pos hgt]; omega

theorem plNeed_good (hl : Layout r n) (hu : ∀ f ∈ r.files, (r.disk.undo f.name).Good (fun _ => True)) {f : FileInfo}
    (hm : f ∈ r.files) (s : PlSt) :
    (plNeed r f s).Good (fun x => x.2.k = s.k ∧ ((s.fd = some x.1 ∧ x.2 = s) ∨ (s.fd = none ∧
      ((x.2.pre = some true ∧ IsPre r f) ∨ x.2.pre = some false)))) := by
  unfold plNeed
  cases hfd : s.fd with
  | some d => exact ⟨rfl, Or.inl ⟨rfl, rfl⟩⟩
  | none =>
    simp only
    cases hg : r.disk.get f.name with
    | none => trivial
    | some data =>
      simp only
      have hq := hl.asked f hm data hg
      cases ho : openedPrelinked f data with
      | err e => trivial
      | ub => rw [ho] at hq; exact hq.elim
      | loop => rw [ho] at hq; exact hq.elim
      | ok b =>
        rw [Out.bind_ok]
        refine Out.Good.ite (fun hb => ?_) (fun _ => ⟨rfl, Or.inr ⟨trivial, Or.inr rfl⟩⟩)
        subst hb
        refine (hu f hm).bind ?_
        intro u _
        exact ⟨rfl, Or.inr ⟨trivial, Or.inl ⟨rfl, data, hg, ho⟩⟩⟩

theorem plRead_good (hl : Layout r n) (hu : ∀ f ∈ r.files, (r.disk.undo f.name).Good (fun _ => True)) {f : FileInfo}
    (hm : f ∈ r.files) (fileOff len : Nat) (s : PlSt) :
    (plRead r f fileOff len s).Good (fun x => x.2.k = s.k ∧ x.1.length = (if fileOff < f.size then min len (f.size - fileOff) else 0) ∧
      (fileOff < f.size → (s.fd ≠ none ∧ x.2.pre = s.pre) ∨ (s.fd = none ∧ ((x.2.pre = some true ∧ IsPre r f) ∨ x.2.pre = some false)))) := by
  unfold plRead
  by_cases hlt : fileOff < f.size
  · rw [if_pos hlt, if_pos hlt]
    refine (plNeed_good hl hu hm s).bind ?_
    rintro ⟨d, s'⟩ ⟨h1, h2⟩
    simp only at h1 h2 ⊢
    refine Out.Good.ite (fun _ => trivial) (fun hb => ⟨h1, by simp only; omega, fun _ => ?_⟩)
    simp only
    rcases h2 with ⟨h2, rfl⟩ | h2
    · left; exact ⟨by rw [h2]; simp, rfl⟩
    · right; exact h2
  · rw [if_neg hlt, if_neg hlt]
    exact ⟨rfl, rfl, fun h => absurd h hlt⟩

/-- A part of the contents of a file. -/
theorem plFile_good (hl : Layout r n) (hu : ∀ f ∈ r.files, (r.disk.undo f.name).Good (fun _ => True)) {k i : Nat} {f : FileInfo} {o : Nat}
    (he : Ent r k i f o) (hreg : isReg f = true) {E fileOff len : Nat} {s : PlSt} (hk : s.k = k)
    (hs : ∀ d q, s.fd = some (d, q) → (o + headLen f + contLen f ≤ E ∨ (s.pre = some true ∧ IsPre r f) ∨ s.pre = some false))
    (hfo : fileOff < contLen f) (hlen : 0 < len) :
    (plFile r f (seqPlace i f o) fileOff len s).Good (fun x => x.2.k = k ∧ 0 < x.1.length ∧ x.1.length ≤ len ∧
      fileOff + x.1.length ≤ contLen f ∧ ∀ d q, x.2.fd = some (d, q) → 0 < fileOff + x.1.length ∧ fileOff + x.1.length < f.size ∧
        (o + headLen f + contLen f ≤ E ∨ (x.2.pre = some true ∧ IsPre r f) ∨ x.2.pre = some false)) := by
  have hm := List.mem_of_getElem? he.file
  have hcl := contLen_reg he.fits hreg
  have h32 := he.fits.size
  have hpl := cpioPadding_lt f.size
  have h4 : (seqPlace i f o).contentLen = contLen f := rfl
  unfold plFile
  refine (plRead_good hl hu hm fileOff len s).bind ?_
  rintro ⟨b, s'⟩ ⟨h1, h2, h3⟩
  simp only at h1 h2 h3 ⊢
  rw [h4]
  have hbl : b.length ≤ len ∧ fileOff + b.length ≤ contLen f := by split at h2 <;> omega
  refine Out.Good.ite (fun hge => ?_) (fun hge => ?_)
  · have hw : (contLen f + 2^64 - (fileOff + b.length)) % 2^64 = contLen f - (fileOff + b.length) := by omega
    rw [hw]
    refine ⟨h1.trans hk, ?_, ?_, ?_, fun d q h => by cases h⟩ <;> simp only [List.length_append, zeros_length]
    · split at h2 <;> omega
    · omega
    · omega
  · have hlt : fileOff < f.size := by omega
    rw [if_pos hlt] at h2
    refine ⟨h1.trans hk, by simp only; omega, hbl.1, hbl.2, ?_⟩
    intro d q _
    refine ⟨by simp only; omega, by simp only; omega, ?_⟩
    rcases h3 hlt with ⟨h5, h6⟩ | ⟨_, h6⟩
    · cases hfd : s.fd with
      | none => exact absurd hfd h5
      | some w =>
        obtain ⟨d', q'⟩ := w
        simp only
        rw [h6]
        exact hs d' q' hfd
    · exact Or.inr h6

theorem PlSafe.noFd {E off : Nat} {s : PlSt} (hs : PlSafe r n E off s) {i : Nat} {f : FileInfo} {o : Nat} (he : Ent r s.k i f o)
    (h : isReg f ≠ true ∨ off < o + headLen f) : s.fd = none := by
  cases hf : s.fd with
  | none => rfl
  | some w =>
    obtain ⟨d, q⟩ := w
    obtain ⟨i', f', o', h1, h2, h3, _⟩ := hs.fdOk d q hf
    obtain ⟨rfl, rfl, rfl⟩ := he.inj h1
    rcases h with h | h
    · exact absurd h2 h
    · omega

/-- What is left of an entry, after its header. -/
theorem plContent_good (hl : Layout r n) {nblk : Nat} (hp : PreLayout r n nblk) {E off len : Nat} {s : PlSt}
    (hs : PlSafe r n E off s) {i : Nat} {f : FileInfo} {o : Nat} (he : Ent r s.k i f o)
    (h1 : o + headLen f ≤ off) (hlen : 0 < len) (hdiv : 8192 ∣ off + len)
    (h3 : 0 < contLen f → off < o + headLen f + contLen f) (h4 : contLen f = 0 → s.fd = none) :
    (plContent r (seqPlace i f o) off len s).Good (fun x => x.2.k = s.k ∧ x.1.length ≤ len ∧ (0 < contLen f → 0 < x.1.length) ∧
      off + x.1.length ≤ o + headLen f + contLen f ∧ PlSafe r n E (off + x.1.length) x.2 ∧ PlOpenEnd r (off + x.1.length) x.2) := by
  have h2 := hs.upTo i f o he
  have e4 : (seqPlace i f o).contentLen = contLen f := rfl
  have e3 : (seqPlace i f o).offset + (seqPlace i f o).headerLen = o + headLen f := rfl
  have e5 : (seqPlace i f o).index = some i := rfl
  have hhere : ∀ p, r.places[s.k]? = some p → ∀ m, p.offset ≤ off + m := fun p hp m => Nat.le_trans (hs.here p hp) (by omega)
  unfold plContent
  rw [if_neg (by omega), e5]
  simp only
  rw [rd_eq_ok.mpr he.file, Out.bind_ok, e3, e4]
  by_cases hk : isLnk f = true
  · rw [if_pos hk]
    have hno := hs.noFd he (Or.inl (lnk_not_reg hk))
    have hdone : ∀ b : Bytes, b.length ≤ len → off + b.length ≤ o + headLen f + contLen f →
        (off + b.length = o + headLen f + contLen f ∨ b.length = len) →
        PlSafe r n E (off + b.length) s ∧ PlOpenEnd r (off + b.length) s := by
      intro b b1 b2 b3
      refine ⟨⟨hs.le, fun p hp => hhere p hp _, ?_, ?_, ?_⟩, ?_⟩
      · intro i' f' o' h'
        obtain ⟨rfl, rfl, rfl⟩ := he.inj h'
        exact b2
      · intro d q hq; rw [hno] at hq; cases hq
      · intro i' f' o' h' _
        obtain ⟨rfl, rfl, rfl⟩ := he.inj h'
        rcases b3 with b3 | b3
        · right; left; omega
        · right; right; rw [b3]; exact hdiv
      · intro d q hq; rw [hno] at hq; cases hq
    refine Out.Good.bind (P := fun b => b.length = min len (contLen f - (off - (o + headLen f)))) ?_ ?_
    · by_cases hz : contLen f = 0
      · have e0 : off - (o + headLen f) = 0 := by omega
        have hl0 : f.linkto.length = 0 := by have := contLen_lnk he.fits hk; omega
        rw [e0]
        unfold plLink plTarget
        rw [hl0, e4, hz]
        simp [Out.Good, zeros]
      · have hlt := h3 (by omega)
        refine plLink_good he.fits hk e4 (by omega) ?_ hlen
        rcases hs.link i f o he hk with q | q | ⟨j, q⟩
        · left; omega
        · omega
        · rcases Nat.lt_or_ge (o + headLen f) off with hc | hc
          · right
            have h5 := hp.links s.k i f o j he.place he.file hk
            have e6 : (seqPlace i f o).headerLen = headLen f := rfl
            rw [e6] at h5
            have h6 : 4 ∣ o := hl.four s.k _ he.place
            have h6' := headLen_four f
            have h7 := contLen_lnk he.fits hk
            have h8 := four_pad f.linkto.length
            have h9 := cpioPadding_lt f.linkto.length
            omega
          · left; omega
    · intro b hb
      obtain ⟨d1, d2⟩ := hdone b (by omega) (by omega) (by omega)
      exact ⟨rfl, by simp only; omega, fun h => by have := h3 h; simp only; omega, by simp only; omega, d1, d2⟩
  · rw [if_neg hk]
    by_cases hz : contLen f = 0
    · rw [if_neg (by omega)]
      have hno := h4 hz
      refine ⟨rfl, Nat.zero_le _, by omega, by simpa using h2, by simpa using hs, ?_⟩
      intro d q hq; rw [hno] at hq; cases hq
    · rw [if_pos (by omega)]
      have hlt := h3 (by omega)
      have hreg : isReg f = true := by
        by_cases h : isReg f = true
        · exact h
        · exact absurd (contLen_other h hk) hz
      refine (plFile_good hl hp.undone he hreg rfl (E := E) (fun d q hq => ?_) (by omega) hlen).mono ?_
      · obtain ⟨i', f', o', w1, w2, w3, w4⟩ := hs.fdOk d q hq
        obtain ⟨rfl, rfl, rfl⟩ := he.inj w1
        exact w4
      · rintro x ⟨q1, q2, q3, q4, q5⟩
        have he' : Ent r x.2.k i f o := by rw [q1]; exact he
        refine ⟨q1, q3, fun _ => q2, by omega, ⟨by rw [q1]; exact hs.le, by rw [q1]; exact fun p hp => hhere p hp _, ?_, ?_, ?_⟩, ?_⟩
        · intro i' f' o' h'
          obtain ⟨rfl, rfl, rfl⟩ := he'.inj h'
          omega
        · intro d q hq
          obtain ⟨w1, w2, w3⟩ := q5 d q hq
          exact ⟨i, f, o, he', hreg, by omega, w3⟩
        · intro i' f' o' h' hk'
          obtain ⟨rfl, rfl, rfl⟩ := he'.inj h'
          exact absurd hk' hk
        · intro d q hq i' f' o' h'
          obtain ⟨rfl, rfl, rfl⟩ := he'.inj h'
          obtain ⟨w1, w2, w3⟩ := q5 d q hq
          exact ⟨by omega, by omega⟩

theorem trailer_no_ent (hl : Layout r n) {i : Nat} {f : FileInfo} {o : Nat} (h : Ent r n i f o) : False := by
  have := (hl.last _ h.place).1
  cases this

theorem fillHeader_none_pos : 0 < (fillHeader none).length := by rw [fillHeader_none, trailerBytes_length]; omega

theorem before_of_entry (hl : Layout r n) {k i : Nat} {f : FileInfo} {o : Nat} (h : Ent r k i f o) {off : Nat}
    (ho : off ≤ o + headLen f + contLen f) : NotPast r n off := by
  intro p hp
  have hk : k < n := by
    have h1 := (List.getElem?_eq_some_iff.mp h.place).1
    rw [hl.length] at h1
    by_cases e : k = n
    · subst e; exact (trailer_no_ent hl h).elim
    · omega
  have h2 := hl.before h (n - (k + 1)) (by omega) p (by rw [show k + 1 + (n - (k + 1)) = n by omega]; exact hp)
  have h3 := (hl.last p hp).2
  have h4 := fillHeader_none_pos
  omega

/-- One block. -/
theorem plFill_good (hl : Layout r n) {nblk : Nat} (hp : PreLayout r n nblk) {E : Nat} :
    ∀ (fuel off len : Nat) (acc : Bytes) (s : PlSt), PlSafe r n E off s → len < fuel → 8192 ∣ off + len →
      (len = 0 → PlOpenEnd r off s) → (len = 0 ∨ NotPast r n off) →
      (plFill r fuel off len acc s).Good (fun x => x.1.length = acc.length + len ∧ PlSafe r n E (off + len) x.2 ∧
        PlOpenEnd r (off + len) x.2) := by
  intro fuel
  induction fuel with
  | zero => intro off len acc s _ h; omega
  | succ fuel ih =>
    intro off len acc s hs hf hdiv ht ho
    rw [plFill]
    refine Out.Good.ite (fun hz => ?_) (fun hz => ?_)
    · subst hz
      exact ⟨rfl, hs, ht rfl⟩
    refine (plSkip_good hl hs (ho.resolve_left hz)).bind ?_
    rintro s1 ⟨hs1, hin⟩
    obtain ⟨p, hpl⟩ := hl.placeAt hs1.le
    have hin := hin p hpl
    have hge := hs1.here p hpl
    rw [rd_eq_ok.mpr hpl, Out.bind_ok]
    have hgo : ∀ (m : Nat) (b : Bytes) (s2 : PlSt), 0 < m + b.length → m + b.length ≤ len →
        PlSafe r n E (off + m + b.length) s2 → PlOpenEnd r (off + m + b.length) s2 →
        (len - m - b.length = 0 ∨ NotPast r n (off + m + b.length)) → ∀ a : Bytes, a.length = acc.length + m + b.length →
        (plFill r fuel (off + m + b.length) (len - m - b.length) a s2).Good (fun x => x.1.length = acc.length + len ∧
          PlSafe r n E (off + len) x.2 ∧ PlOpenEnd r (off + len) x.2) := by
      intro m b s2 w1 w2 w3 w4 w5 a w6
      have hsum : off + m + b.length + (len - m - b.length) = off + len := by omega
      refine (ih _ _ a s2 w3 (by omega) (by rwa [hsum]) (fun _ => w4) w5).mono ?_
      rintro x ⟨x1, x2, x3⟩
      rw [hsum] at x2 x3
      exact ⟨by omega, x2, x3⟩
    rcases Nat.lt_or_ge s1.k n with hlt | hgn
    · obtain ⟨i, f, o, he⟩ := hl.ent hlt
      rw [he.place] at hpl
      cases hpl
      have e3 : (seqPlace i f o).offset + (seqPlace i f o).headerLen = o + headLen f := rfl
      have e2 : (seqPlace i f o).headerLen = headLen f := rfl
      have e1 : (seqPlace i f o).offset = o := rfl
      have e4 : (seqPlace i f o).contentLen = contLen f := rfl
      have e5 : (seqPlace i f o).index = some i := rfl
      rw [e3, e4] at hin
      rw [e1] at hge
      have hh : (plHeader r (seqPlace i f o) off len).Good (fun h => h.length = min len (o + headLen f - off)) := by
        unfold plHeader
        rw [e3]
        refine Out.Good.ite (fun hc => ?_) (fun hc => by show 0 = _; omega)
        rw [e5]
        simp only
        rw [rd_eq_ok.mpr he.file, Out.bind_ok]
        have hfl := (seqPlace_headerLen he.fits i o).1
        rw [e1, e2] at *
        refine (rdBlk_good (by omega)).mono ?_
        intro b hb
        omega
      refine hh.bind ?_
      intro h hb
      have hs2 : PlSafe r n E (off + h.length) s1 := by
        refine ⟨hs1.le, fun p hp => Nat.le_trans (hs1.here p hp) (by omega), ?_, ?_, ?_⟩
        · intro i' f' o' h'
          obtain ⟨rfl, rfl, rfl⟩ := he.inj h'
          omega
        · intro d q hq
          obtain ⟨i', f', o', w1, w2, w3, w4⟩ := hs1.fdOk d q hq
          exact ⟨i', f', o', w1, w2, by omega, w4⟩
        · intro i' f' o' h' hk'
          have := hs1.link i' f' o' h' hk'
          obtain ⟨rfl, rfl, rfl⟩ := he.inj h'
          rcases Nat.lt_or_ge off (o + headLen f) with hc | hc
          · left; omega
          · rw [show h.length = 0 by omega, Nat.add_zero]; exact this
      by_cases hz : len - h.length = 0
      · have hno : s1.fd = none := hs1.noFd he (Or.inr (by omega))
        have e : plContent r (seqPlace i f o) (off + h.length) (len - h.length) s1 = .ok ([], s1) := by
          unfold plContent; rw [if_pos hz]
        rw [e, Out.bind_ok]
        refine hgo h.length [] s1 (by simp only [List.length_nil]; omega) (by simp only [List.length_nil]; omega) (by simpa using hs2) ?_
          (Or.inl (by simpa using hz)) _ (by simp)
        intro d q hq; rw [hno] at hq; cases hq
      · refine (plContent_good hl hp (len := len - h.length) hs2 he (by omega) (by omega)
          (by rwa [show off + h.length + (len - h.length) = off + len by omega]) (fun _ => by omega)
          (fun h0 => hs1.noFd he (Or.inr (by omega)))).bind ?_
        rintro ⟨b, s2⟩ ⟨q1, q2, q3, q4, q5, q6⟩
        simp only at q1 q2 q3 q4 q5 q6 ⊢
        refine hgo h.length b s2 ?_ (by omega) q5 q6 (Or.inr (before_of_entry hl he q4)) _ (by simp [Nat.add_assoc])
        rcases Nat.eq_zero_or_pos (contLen f) with h0 | h0
        · omega
        · have := q3 h0; omega
    · have e : s1.k = n := by have := hs1.le; omega
      rw [e] at hpl
      obtain ⟨t1, t2⟩ := hl.last p hpl
      have hno : s1.fd = none := by
        cases hf : s1.fd with
        | none => rfl
        | some w =>
          obtain ⟨d, q⟩ := w
          obtain ⟨i', f', o', w1, _⟩ := hs1.fdOk d q hf
          rw [e] at w1
          exact (trailer_no_ent hl w1).elim
      have hsafe : ∀ m, PlSafe r n E (off + m) s1 := by
        intro m
        refine ⟨hs1.le, fun p hp => Nat.le_trans (hs1.here p hp) (by omega), ?_, ?_, ?_⟩
        · intro i' f' o' h'
          rw [e] at h'
          exact (trailer_no_ent hl h').elim
        · intro d q hq; rw [hno] at hq; cases hq
        · intro i' f' o' h'
          rw [e] at h'
          exact (trailer_no_ent hl h').elim
      have hh : (plHeader r p off len).Good (fun h => h.length ≤ len) := by
        unfold plHeader
        refine Out.Good.ite (fun hc => ?_) (fun hc => Nat.zero_le _)
        rw [t1]
        simp only
        refine (rdBlk_good (by omega)).mono ?_
        intro b hb
        omega
      refine hh.bind ?_
      intro h hb
      have e' : plContent r p (off + h.length) (len - h.length) s1 = .ok (zeros (len - h.length), s1) := by
        unfold plContent
        by_cases hz : len - h.length = 0
        · rw [if_pos hz, hz]; rfl
        · rw [if_neg hz, t1]
      rw [e', Out.bind_ok]
      refine hgo h.length (zeros (len - h.length)) s1 ?_ ?_ ?_ ?_ ?_ _ (by simp [Nat.add_assoc]) <;> rw [zeros_length]
      · omega
      · omega
      · rw [Nat.add_assoc]; exact hsafe _
      · intro d q hq; rw [hno] at hq; cases hq
      · left; omega

/-! ## Where to begin -/

theorem plEntry_good (hl : Layout r n) (off : Nat) : ∀ k, k < n →
    (plEntry r.places off k).Good (fun k' => k' ≤ k ∧ (∀ p, r.places[k']? = some p → p.offset ≤ off) ∧
      (k' = k ∨ ∀ q, r.places[k' + 1]? = some q → off < q.offset)) := by
  intro k
  induction k with
  | zero =>
    intro h
    obtain ⟨p, hp⟩ := hl.placeAt (Nat.zero_le n)
    have h0 := hl.first p hp
    rw [plEntry, rd_eq_ok.mpr hp, Out.bind_ok, if_neg (by omega)]
    exact ⟨Nat.le_refl _, fun q hq => by rw [hl.first q hq]; exact Nat.zero_le _, Or.inl rfl⟩
  | succ k ih =>
    intro h
    obtain ⟨p, hp⟩ := hl.placeAt (Nat.le_of_lt h)
    rw [plEntry, rd_eq_ok.mpr hp, Out.bind_ok]
    refine Out.Good.ite (fun hc => ?_) (fun hc => ⟨Nat.le_refl _, fun q hq => by rw [hp] at hq; cases hq; omega, Or.inl rfl⟩)
    refine (ih (by omega)).mono ?_
    rintro k' ⟨q1, q2, q3⟩
    refine ⟨by omega, q2, Or.inr ?_⟩
    rcases q3 with rfl | q3
    · intro q hq; rw [hp] at hq; cases hq; omega
    · exact q3

/-- What `plStart` is to find. -/
def StartOk (r : FsIn) (n id : Nat) (x : Nat × PlSt) : Prop :=
  x.1 ≤ id ∧ (plSeek r x.1 x.2).Good (fun s => PlSafe r n (8192 * (x.1 + 1)) (8192 * x.1) s ∧ NotPast r n (8192 * x.1))

theorem StartOk.closed (hl : Layout r n) {id k i : Nat} {f : FileInfo} {o : Nat} (he : Ent r k i f o) (hk : k ≤ n)
    (h1 : o ≤ 8192 * id) (h2 : 8192 * id < o + headLen f + contLen f) (pre : Option Bool) :
    StartOk r n id (id, ⟨k, none, pre⟩) := by
  refine ⟨Nat.le_refl _, ⟨hk, ?_, ?_, ?_, ?_⟩, before_of_entry hl he (Nat.le_of_lt h2)⟩
  · intro p hp; simp only at hp ⊢; rw [he.place] at hp; cases hp; exact h1
  · intro i' f' o' h'
    obtain ⟨rfl, rfl, rfl⟩ := he.inj h'
    exact Nat.le_of_lt h2
  · intro d q h; cases h
  · intro i' f' o' _ _
    exact Or.inr (Or.inr ⟨id, rfl⟩)

theorem plStart_good (hl : Layout r n) : ∀ (fuel id k i : Nat) (f : FileInfo) (o : Nat) (pre : Option Bool),
    Ent r k i f o → IsPre r f → o + headLen f < 8192 * (id + 1) → 8192 * id < o + headLen f + contLen f → id < fuel →
    (plStart r fuel id k pre).Good (StartOk r n id) := by
  intro fuel
  induction fuel with
  | zero => intro id k i f o pre _ _ _ _ h; omega
  | succ fuel ih =>
    intro id k i f o pre he hpre h1 h2 hf
    have hmul : id * blockSize = 8192 * id := by rw [show blockSize = 8192 from rfl, Nat.mul_comm]
    have hkn : k < n := by
      have hlt := (List.getElem?_eq_some_iff.mp he.place).1
      rw [hl.length] at hlt
      by_cases e : k = n
      · subst e; exact (trailer_no_ent hl he).elim
      · omega
    rw [plStart]
    refine (plEntry_good hl _ k hkn).bind ?_
    rintro k' ⟨e1, e2, e3⟩
    rw [hmul] at e2 e3
    obtain ⟨j, g, p, hg⟩ := hl.ent (show k' < n by omega)
    have e4 : p ≤ 8192 * id := e2 _ hg.place
    have e5 : 8192 * id < p + headLen g + contLen g := by
      rcases e3 with rfl | e3
      · obtain ⟨rfl, rfl, rfl⟩ := he.inj hg; exact h2
      · obtain ⟨q, hq⟩ := hl.placeAt (show k' + 1 ≤ n by omega)
        rw [← hl.after hg hq]
        exact e3 q hq
    have w1 : (seqPlace j g p).offset + (seqPlace j g p).headerLen = p + headLen g := rfl
    have w2 : (seqPlace j g p).contentLen = contLen g := rfl
    have w3 : (seqPlace j g p).index = some j := rfl
    have hhere : (plHere r id k' pre).Good (fun x => (∃ s, x = some s ∧ StartOk r n id (id, s)) ∨
        (x = none ∧ IsPre r g ∧ p + headLen g < 8192 * id)) := by
      unfold plHere
      rw [rd_eq_ok.mpr hg.place, Out.bind_ok, w3, hmul]
      simp only
      rw [w1, w2]
      refine Out.Good.ite (fun hb => Or.inl ⟨_, rfl, .closed hl hg (by omega) e4 e5 pre⟩) (fun hb => ?_)
      rw [rd_eq_ok.mpr hg.file, Out.bind_ok]
      refine Out.Good.ite (fun _ => Or.inl ⟨_, rfl, .closed hl hg (by omega) e4 e5 pre⟩) (fun hlk => ?_)
      have hreg : isReg g = true := by
        by_cases h : isReg g = true
        · exact h
        · exfalso
          exact hb (Or.inl (contLen_other h hlk))
      have hopen : ∀ d pr, (p + headLen g + contLen g ≤ 8192 * (id + 1) ∨ pr = some false) →
          StartOk r n id (id, ⟨k', some (d, 0), pr⟩) := by
        intro d pr hor
        refine ⟨Nat.le_refl _, ?_⟩
        unfold plSeek
        simp only
        rw [rd_eq_ok.mpr hg.place, Out.bind_ok, w3]
        simp only
        rw [rd_eq_ok.mpr hg.file, Out.bind_ok]
        refine ⟨⟨by simp only; omega, ?_, ?_, ?_, ?_⟩, before_of_entry hl hg (Nat.le_of_lt e5)⟩
        · intro p hp; simp only at hp ⊢; rw [hg.place] at hp; cases hp; exact e4
        · intro i' f' o' h'
          obtain ⟨rfl, rfl, rfl⟩ := hg.inj h'
          exact Nat.le_of_lt e5
        · intro d q h
          refine ⟨j, g, p, hg, hreg, by omega, ?_⟩
          rcases hor with hor | hor
          · exact Or.inl hor
          · exact Or.inr (Or.inr hor)
        · intro i' f' o' _ _
          exact Or.inr (Or.inr ⟨id, rfl⟩)
      unfold plOpen
      cases hd : r.disk.get g.name with
      | none => trivial
      | some d =>
        simp only
        refine Out.Good.ite (fun hsz => ?_) (fun hsz => ?_)
        · refine Or.inl ⟨_, rfl, hopen d pre (Or.inl ?_)⟩
          have hne : k' ≠ k := by
            rintro rfl
            obtain ⟨rfl, rfl, rfl⟩ := he.inj hg
            obtain ⟨d', d1, d2⟩ := hpre
            rw [hd] at d1
            cases d1
            unfold openedPrelinked at d2
            rw [if_neg (by simp [hsz])] at d2
            cases d2
          have := hl.before hg (k - (k' + 1)) (by omega) _ (by rw [show k' + 1 + (k - (k' + 1)) = k by omega]; exact he.place)
          have w4 : (seqPlace i f o).offset = o := rfl
          omega
        · have hq := hl.asked g (List.mem_of_getElem? hg.file) d hd
          unfold openedPrelinked at hq
          rw [if_pos hsz] at hq
          cases ho : isPrelinked d (d.take 128) with
          | err e => trivial
          | ub => rw [ho] at hq; exact hq.elim
          | loop => rw [ho] at hq; exact hq.elim
          | ok b =>
            rw [Out.bind_ok]
            refine Out.Good.ite (fun hb => ?_) (fun _ => Or.inl ⟨_, rfl, hopen d _ (Or.inr rfl)⟩)
            subst hb
            refine Or.inr ⟨rfl, ⟨d, hd, ?_⟩, by omega⟩
            unfold openedPrelinked
            rw [if_pos hsz]; exact ho
    refine hhere.bind ?_
    rintro x (⟨s, rfl, hs⟩ | ⟨rfl, hp1, hp2⟩)
    · exact hs
    · simp only
      rw [rd_eq_ok.mpr hg.place, Out.bind_ok, w1]
      obtain ⟨z1, z2, z3⟩ := plDown_ok _ _ hp2
      refine (ih _ k' j g p (some true) hg hp1 z3 (by omega) (by omega)).mono ?_
      rintro ⟨id0, s⟩ ⟨q1, q2⟩
      exact ⟨by simp only at q1 ⊢; omega, q2⟩

/-! ## The blocks from there on -/

theorem plRun_good (hl : Layout r n) {cfg : CacheCfg} (hp : PreLayout r n cfg.nblk) {I : FsSt → Prop} {a orig cnt E : Nat} :
    ∀ (fuel : Nat) (c : Cache FsSt) (id : Nat) (s : PlSt) (saved : Option Bytes),
      PlSafe r n E (8192 * id) s → E ≤ 8192 * (id + 1) → NotPast r n (8192 * id) → id < cfg.nblk →
      (orig < id → ∃ b, saved = some b ∧ b.length = blockSize) →
      FInv cfg blankBlock c.erase cnt orig (some a) → a ∈ c.core → I c.src → cfg.nblk < id + fuel →
      (plRun cfg r a orig cnt fuel c id s saved).Good (fun c' => FInv cfg blankBlock c'.erase cnt orig (some a) ∧ a ∈ c'.core ∧
        ((c'.heap a).type = .core ∨ (c'.heap a).type = .nopage) ∧ (c'.heap a).id = orig ∧ (c'.heap a).buf.length = blockSize ∧
        I c'.src) := by
  intro fuel
  induction fuel with
  | zero => intro c id s saved _ _ _ h _ _ _ _ hf; omega
  | succ fuel ih =>
    intro c id s saved hs hE hoff hid hsav hinv ha hI hf
    have hmul : id * blockSize = 8192 * id := by rw [show blockSize = 8192 from rfl, Nat.mul_comm]
    have hnext : 8192 * id + blockSize = 8192 * (id + 1) := by rw [show blockSize = 8192 from rfl]; omega
    rw [plRun, hmul]
    refine (plFill_good hl hp (blockSize + 1) (8192 * id) blockSize [] s hs (by omega)
      ⟨id + 1, by rw [show blockSize = 8192 from rfl]; omega⟩ (fun h => by cases h) (Or.inr hoff)).bind ?_
    rintro ⟨b, s'⟩ ⟨b1, e2, e3⟩
    simp only [List.length_nil, Nat.zero_add] at b1 e2 e3 ⊢
    rw [hnext] at e2 e3
    have hset : ∀ (c : Cache FsSt) (id : Nat) (b : Bytes), FInv cfg blankBlock c.erase cnt orig (some a) → a ∈ c.core →
        FInv cfg blankBlock (Cache.erase { c with heap := upd c.heap a { c.heap a with type := .core, id := id, buf := b } }) cnt orig (some a) := by
      intro c id b h h'
      have := h.setHole h' (Blk.erase { c.heap a with type := .core, id := id, buf := b })
      have e : Cache.erase { c with heap := upd c.heap a { c.heap a with type := .core, id := id, buf := b } } =
          { c.erase with heap := upd c.erase.heap a (Blk.erase { c.heap a with type := .core, id := id, buf := b }) } := by
        unfold Cache.erase
        rw [erase_upd]
      rw [e]; exact this
    have hkeep : (plKeep cfg { c with heap := upd c.heap a { c.heap a with type := .core, id := id, buf := b } } a id orig cnt).Good
        (fun c1 => FInv cfg blankBlock c1.erase cnt orig (some a) ∧ a ∈ c1.core ∧ I c1.src) := by
      have h1 := hset c id b hinv ha
      unfold plKeep
      refine Out.Good.ite (fun _ => ⟨h1, ha, hI⟩) (fun _ => ?_)
      rw [maxRd, if_pos hid, Out.bind_ok]
      refine Out.Good.ite (fun _ => ?_) (fun _ => ⟨h1, ha, hI⟩)
      have hfol := pushBlock_erase (cfg := cfg) (I := I) (c := { c with heap := upd c.heap a { c.heap a with type := .core, id := id, buf := b } })
        hI a cnt
      obtain ⟨c1, f1, f2, f3, _, _⟩ := pushBlock_finv h1 ha (by simp [Cache.erase, Blk.erase, upd])
        (by simp [Cache.erase, Blk.erase, upd]; exact hid) (by simp [Cache.erase, Blk.erase, upd, blankBlock, b1])
      rw [f1] at hfol
      rcases hfol with ⟨e, he⟩ | ⟨x, he, h3, h4⟩
      · rw [he]; trivial
      · rw [he]
        subst h4
        exact ⟨f2, f3, h3⟩
    refine hkeep.bind ?_
    rintro c1 ⟨f1, f2, f3⟩
    have hsv : orig ≤ id → ∃ b', (if id = orig then some b else saved) = some b' ∧ b'.length = blockSize := by
      intro h
      by_cases he : id = orig
      · rw [if_pos he]; exact ⟨b, rfl, b1⟩
      · rw [if_neg he]; exact hsav (by omega)
    have hstop : (plStop s').Good (fun t => t = true ∨ (id + 1 < cfg.nblk ∧ NotPast r n (8192 * (id + 1)))) := by
      unfold plStop
      rcases hfd : s'.fd with _ | ⟨d, q⟩
      · exact Or.inl rfl
      · obtain ⟨i, f, o, x1, x2, x3, x4⟩ := e2.fdOk d q hfd
        have ht := e3 d q hfd i f o x1
        have hcl := contLen_reg x1.fits x2
        rcases x4 with x4 | ⟨x4, x5⟩ | x4
        · omega
        · rw [x4]
          refine Or.inr ⟨hp.inside s'.k i f o (id + 1) x1.place x1.file x2 x5 ht.1 ht.2, before_of_entry hl x1 ?_⟩
          omega
        · rw [x4]; exact Or.inl rfl
    refine hstop.bind ?_
    intro t ht
    refine Out.Good.ite (fun _ => Out.Good.ite (fun _ => trivial) (fun hge => ?_)) (fun hn => ?_)
    · obtain ⟨b', hb', hl'⟩ := hsv (by omega)
      rw [hb']
      exact ⟨hset c1 orig b' f1 f2, f2, Or.inl (by simp [upd]), by simp [upd], by simp [upd, hl'], f3⟩
    · rcases ht with ht | ⟨t1, t2⟩
      · exact absurd ht hn
      · exact ih c1 (id + 1) s' _ e2 (by omega) t2 t1 (fun h => hsv (by omega)) f1 f2 f3 (by omega)

/-- `fillblock_filesystem` with `fillblock_prelink` as the cache uses it. -/
theorem diskFiller_may (hl : Layout r n) {cfg : CacheCfg} (hp : (∃ f ∈ r.files, IsPre r f) → PreLayout r n cfg.nblk) :
    FillsMay cfg (SafeInv r n) (diskFiller cfg r) := by
  intro c a id cnt hid hinv ha hsrc
  unfold diskFiller
  refine (fsBlock_good hl hsrc id).bind ?_
  rintro ⟨x, s⟩ ⟨hs, hx⟩
  simp only at hs hx ⊢
  rcases hx with ⟨b, rfl, hb⟩ | ⟨k, rfl, i, f, o, off, p1, p2, p3, p4, p5, p6, p7, p8, p9⟩
  · simp only
    refine ⟨?_, ha, Or.inr (by simp [upd]), by simp [upd], by simp [upd, hb], hs⟩
    have := (hinv.setMisc c.last c.cleanup c.rpmId ()).setHole ha (Blk.erase { c.heap a with type := .nopage, id := id, buf := b })
    have e : Cache.erase { c with src := s, heap := upd c.heap a { c.heap a with type := .nopage, id := id, buf := b } } =
        { c.erase with heap := upd c.erase.heap a (Blk.erase { c.heap a with type := .nopage, id := id, buf := b }) } := by
      unfold Cache.erase
      rw [erase_upd]
    rw [e]; exact this
  · simp only
    obtain ⟨j, g, q, q1, q2, q3⟩ := p5
    have hP := hp ⟨g, List.mem_of_getElem? q2, q3⟩
    have he : Ent r k i f o := ⟨p1, p2, p3⟩
    obtain ⟨o', h'⟩ := hP.numbers k i f o p1 p2 p4 (by omega)
    have hg : f = g := by
      rw [h'] at q1
      have e1 : some i = some j := congrArg CpioFile.index (Option.some.inj q1)
      cases e1
      rw [p2] at q2
      exact Option.some.inj q2
    subst hg
    have hmul : id * blockSize = 8192 * id := by rw [show blockSize = 8192 from rfl, Nat.mul_comm]
    have hbs : blockSize = 8192 := rfl
    have hcl := contLen_reg p3 p4
    have hhl : (seqPlace i f o).headerLen = headLen f := rfl
    rw [hmul] at p8 p9
    unfold plBlock
    refine (plStart_good hl (id + 1) id k i f o none he q3 (by omega) (by omega) (by omega)).bind ?_
    rintro ⟨id0, s0⟩ ⟨z1, z2⟩
    simp only at z1 z2 ⊢
    refine z2.bind ?_
    rintro s1 ⟨z3, z4⟩
    exact plRun_good hl hP _ { c with src := s } id0 s1 none z3 (Nat.le_refl _) z4 (by omega) (fun h => by omega)
      (hinv.setMisc c.last c.cleanup c.rpmId ()) ha hs (by omega)

end Drpm
