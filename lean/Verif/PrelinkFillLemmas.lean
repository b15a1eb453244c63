import Verif.CacheFiles
import Verif.OpenFilesLemmas
import Verif.PrelinkFill
/-!
# Lemmas about blocks with prelinked files
-/

namespace Drpm

variable {r : FsIn} {g : Bytes → Option Bytes} {ks : List (Nat × FileInfo)}

/-! ## The layout -/

/-- Where entry `k` begins. -/
def startOf (g : Bytes → Option Bytes) (ks : List (Nat × FileInfo)) (k : Nat) : Nat := (diskEntries g (ks.take k)).length

theorem contentStart_eq (k : Nat) (x : Nat × FileInfo) :
    contentStart g ks k x = startOf g ks k + (alteredHeader x.2).length := rfl

theorem FsOk.place (hk : FsOk r g ks) {k : Nat} {x : Nat × FileInfo} (hx : ks[k]? = some x) :
    ∃ p, r.places[k]? = some p ∧ p.offset = startOf g ks k ∧ p.headerLen = (alteredHeader x.2).length ∧
      p.contentLen = (diskContent g x.2).length ∧ p.index = some x.1 ∧
      startOf g ks (k + 1) = contentStart g ks k x + (diskContent g x.2).length ∧ 110 ≤ (alteredHeader x.2).length := by
  have hm := List.mem_of_getElem? hx
  refine ⟨_, hk.entry hx, rfl, ?_, ?_, rfl, ?_, ?_⟩
  · rw [alteredHeader_length]; rfl
  · exact (diskContent_length hk.present hm (hk.fits x hm) _).symm
  · unfold startOf contentStart
    rw [take_succ_of hx, diskEntries_append, List.length_append, diskEntries_cons, List.length_append]
    unfold diskEntry
    simp [diskEntries, Nat.add_assoc]
  · rw [alteredHeader_length]; omega

theorem startOf_length : startOf g ks ks.length + trailerBytes.length = (diskArchive g ks).length := by
  unfold startOf diskArchive
  rw [List.take_length, List.length_append]

theorem FsOk.placeEnd (hk : FsOk r g ks) :
    ∃ p, r.places[ks.length]? = some p ∧ p.offset = startOf g ks ks.length ∧ p.headerLen = trailerBytes.length ∧
      p.contentLen = 0 ∧ p.index = none := by
  refine ⟨_, hk.trailer, ?_, trailerBytes_length.symm, rfl, rfl⟩
  unfold startOf
  rw [List.take_length]
  rfl

theorem startOf_mono {k l : Nat} (h : k ≤ l) : startOf g ks k ≤ startOf g ks l := by
  unfold startOf
  have e : ks.take l = ks.take k ++ (ks.drop k).take (l - k) := by
    have : l = k + (l - k) := by omega
    conv => lhs; rw [this, List.take_add]
  rw [e, diskEntries_append, List.length_append]
  omega

/-- Bytes of a header. -/
theorem header_prefix {k : Nat} {x : Nat × FileInfo} (hx : ks[k]? = some x) {off n : Nat} (h1 : startOf g ks k ≤ off)
    (h2 : off + n ≤ contentStart g ks k x) :
    slice (alteredHeader x.2) (off - startOf g ks k) n <+: (diskArchive g ks).drop off := by
  unfold contentStart startOf at *
  rw [diskArchive_drop g hx, List.drop_append, List.drop_eq_nil_of_le (by omega), List.nil_append]
  unfold diskEntry slice
  rw [List.append_assoc, List.drop_append_of_le_length (by omega)]
  exact (List.take_prefix _ _).trans (List.prefix_append _ _)

/-- Bytes of a content. -/
theorem content_prefix {k : Nat} {x : Nat × FileInfo} (hx : ks[k]? = some x) {off : Nat} {b : Bytes}
    (h1 : contentStart g ks k x ≤ off) (h2 : off ≤ contentStart g ks k x + (diskContent g x.2).length)
    (hb : b <+: (diskContent g x.2).drop (off - contentStart g ks k x)) :
    b <+: (diskArchive g ks).drop off := by
  have e : (diskArchive g ks).drop off = (diskContent g x.2).drop (off - contentStart g ks k x) ++
      (diskEntries g (ks.drop (k + 1)) ++ trailerBytes) := by
    unfold contentStart at h1 h2 ⊢
    rw [diskArchive_drop g hx, List.drop_append, List.drop_eq_nil_of_le (by omega), List.nil_append]
    unfold diskEntry
    rw [List.append_assoc, List.drop_append, List.drop_eq_nil_of_le (by omega), List.nil_append, Nat.sub_sub,
      List.drop_append_of_le_length (by omega)]
  rw [e]
  exact hb.trans (List.prefix_append _ _)

theorem four_pad (n : Nat) : 4 ∣ n + cpioPadding n := by
  unfold cpioPadding padding
  omega

theorem alteredHeader_four (f : FileInfo) : 4 ∣ (alteredHeader f).length := by
  rw [alteredHeader_length]
  exact four_pad _

theorem diskContent_four {x : Nat × FileInfo} (hp : Present g ks) (hx : x ∈ ks) : 4 ∣ (diskContent g x.2).length := by
  unfold diskContent
  split
  · rw [List.length_append, zeros_length]
    exact four_pad _
  · split
    · rename_i hr
      obtain ⟨d, d1, d2⟩ := hp x hx hr
      rw [d1, Option.getD_some, List.length_append, zeros_length, d2]
      exact four_pad _
    · exact ⟨0, rfl⟩

theorem diskEntries_four : ∀ (l : List (Nat × FileInfo)), Present g l → 4 ∣ (diskEntries g l).length := by
  intro l
  induction l with
  | nil => intro _; exact ⟨0, rfl⟩
  | cons x l ih =>
    intro hp
    rw [diskEntries_cons, List.length_append]
    unfold diskEntry
    rw [List.length_append]
    have h1 := ih (fun y hy => hp y (by simp [hy]))
    have h2 := alteredHeader_four x.2
    have h3 := diskContent_four hp (x := x) (by simp)
    omega

/-- Contents begin at multiples of four. -/
theorem contentStart_four (hp : Present g ks) (k : Nat) (x : Nat × FileInfo) : 4 ∣ contentStart g ks k x := by
  unfold contentStart
  have h1 := diskEntries_four (ks.take k) (fun y hy => hp y (List.mem_of_mem_take hy))
  have h2 := alteredHeader_four x.2
  omega

/-! ## The state of a fill -/

/-- The state at offset `off`: an open descriptor is that of the entry, at the right position, and
    `prelinked` says whether prelink changed the file, unless the entry ends before `E`. -/
structure PlInv (r : FsIn) (g : Bytes → Option Bytes) (ks : List (Nat × FileInfo)) (E off : Nat) (s : PlSt) : Prop where
  inEntry : (∃ x, ks[s.k]? = some x ∧ startOf g ks s.k ≤ off ∧ off ≤ startOf g ks (s.k + 1)) ∨
    (s.k = ks.length ∧ startOf g ks s.k ≤ off)
  fdOk : ∀ e p, s.fd = some (e, p) → ∃ x, ks[s.k]? = some x ∧ isReg x.2 = true ∧ isLnk x.2 ≠ true ∧
    ∃ d, g x.2.name = some d ∧ d <+: e ∧ contentStart g ks s.k x ≤ off ∧
    (off < contentStart g ks s.k x + x.2.size → p = off - contentStart g ks s.k x) ∧
    (startOf g ks (s.k + 1) ≤ E ∨ (s.pre = some true ∧ Prelinked r.disk x.2 d) ∨
      (s.pre = some false ∧ Unchanged r.disk x.2 d))
  noFd : s.fd = none → ∀ x, ks[s.k]? = some x → isReg x.2 = true →
    ¬ (contentStart g ks s.k x < off ∧ off < contentStart g ks s.k x + x.2.size)
  link : ∀ x, ks[s.k]? = some x → isLnk x.2 = true →
    off ≤ contentStart g ks s.k x ∨ startOf g ks (s.k + 1) ≤ off ∨ 8192 ∣ off

/-- An open descriptor is not at the end of the file. -/
def PlTight (g : Bytes → Option Bytes) (ks : List (Nat × FileInfo)) (off : Nat) (s : PlSt) : Prop :=
  ∀ d p, s.fd = some (d, p) → ∀ x, ks[s.k]? = some x →
    contentStart g ks s.k x < off ∧ off < contentStart g ks s.k x + x.2.size

theorem plSkip_ok (hk : FsOk r g ks) {E off : Nat} {s : PlSt} (hs : PlInv r g ks E off s)
    (hoff : off < (diskArchive g ks).length) :
    ∃ s', plSkip r.places off r.places.length s = .ok s' ∧ PlInv r g ks E off s' ∧
      ((∃ x, ks[s'.k]? = some x ∧ startOf g ks s'.k ≤ off ∧ off < startOf g ks (s'.k + 1)) ∨
       (s'.k = ks.length ∧ startOf g ks s'.k ≤ off)) := by
  have hlen := hk.length
  have hend := @startOf_length g ks
  rcases hs.inEntry with ⟨x, hx, h1, h2⟩ | ⟨he, h1⟩
  · obtain ⟨p, p1, p2, p3, p4, p5, p6, p7⟩ := hk.place hx
    have hlt : s.k < ks.length := (List.getElem?_eq_some_iff.mp hx).1
    rw [contentStart_eq] at p6
    rw [hlen, plSkip, rd_eq_ok.mpr p1, Out.bind_ok]
    by_cases hc : off < startOf g ks (s.k + 1)
    · rw [if_neg (by omega)]
      exact ⟨s, rfl, hs, Or.inl ⟨x, hx, h1, hc⟩⟩
    · rw [if_pos (by omega)]
      have hoe : off = startOf g ks (s.k + 1) := by omega
      obtain ⟨n, hn⟩ : ∃ n, ks.length = n + 1 := ⟨ks.length - 1, by omega⟩
      rw [hn, plSkip]
      simp only
      have hnew : ∀ (hi : (∃ x, ks[s.k + 1]? = some x ∧ startOf g ks (s.k + 1) ≤ off ∧ off ≤ startOf g ks (s.k + 1 + 1)) ∨
          (s.k + 1 = ks.length ∧ startOf g ks (s.k + 1) ≤ off)), PlInv r g ks E off ⟨s.k + 1, none, s.pre⟩ := by
        intro hi
        refine ⟨hi, (fun d p h => by cases h), ?_, ?_⟩
        · intro _ y _ _
          simp only [contentStart_eq]
          omega
        · intro y _ _
          left
          simp only [contentStart_eq]
          omega
      by_cases hl : s.k + 1 < ks.length
      · obtain ⟨y, hy⟩ : ∃ y, ks[s.k + 1]? = some y := ⟨_, List.getElem?_eq_getElem hl⟩
        obtain ⟨q, q1, q2, q3, q4, q5, q6, q7⟩ := hk.place hy
        rw [contentStart_eq] at q6
        rw [rd_eq_ok.mpr q1, Out.bind_ok, if_neg (by omega)]
        exact ⟨_, rfl, hnew (Or.inl ⟨y, hy, by omega, by omega⟩), Or.inl ⟨y, hy, by simp only; omega, by simp only; omega⟩⟩
      · have hkl : s.k + 1 = ks.length := by omega
        obtain ⟨q, q1, q2, q3, q4, q5⟩ := hk.placeEnd
        rw [hkl, rd_eq_ok.mpr q1, Out.bind_ok, ← hkl]
        rw [← hkl] at q2
        have : 0 < trailerBytes.length := by rw [trailerBytes_length]; omega
        rw [if_neg (by omega)]
        exact ⟨_, rfl, hnew (Or.inr ⟨hkl, by omega⟩), Or.inr ⟨by simp only; omega, by simp only; omega⟩⟩
  · obtain ⟨q, q1, q2, q3, q4, q5⟩ := hk.placeEnd
    rw [hlen, plSkip, he, rd_eq_ok.mpr q1, Out.bind_ok, if_neg (by omega)]
    exact ⟨s, rfl, hs, Or.inr ⟨he, h1⟩⟩

/-- A part of the target of a link. -/
theorem plLink_ok {f : FileInfo} {cpio : CpioFile} (hl : isLnk f = true)
    (hc : cpio.contentLen = (diskContent g f).length) {fileOff len : Nat} (hfo : fileOff < cpio.contentLen)
    (hsafe : fileOff = 0 ∨ f.linkto.length < fileOff) (hlen : 0 < len) :
    ∃ b, plLink f cpio fileOff len = .ok b ∧ b <+: (diskContent g f).drop fileOff ∧
      b.length = min len (cpio.contentLen - fileOff) := by
  have hd : diskContent g f = f.linkto ++ zeros (cpioPadding f.linkto.length) := by
    unfold diskContent; rw [if_pos hl]
  rw [hd, List.length_append, zeros_length] at hc
  unfold plLink plTarget
  simp only
  rcases hsafe with rfl | hgt
  · have e0 : (if f.linkto.length < 0 then 0 else f.linkto.length) = f.linkto.length := if_neg (by omega)
    rw [e0]
    by_cases hz : min len f.linkto.length = 0
    · rw [if_pos hz, Out.bind_ok]
      refine ⟨_, rfl, ?_, by rw [List.nil_append, zeros_length]; omega⟩
      have h0 : f.linkto.length = 0 := by omega
      rw [hd, List.length_eq_zero_iff.mp h0, List.drop_zero, List.nil_append, List.nil_append]
      unfold zeros
      refine ⟨List.replicate (cpioPadding ([] : Bytes).length - min (len - min len 0) (cpio.contentLen - (0 + min len 0))) 0, ?_⟩
      rw [h0] at hc
      simp only [List.length_nil] at hc ⊢
      rw [List.replicate_append_replicate]
      congr 1
      omega
    · rw [if_neg hz, rdBlk_ok (by rw [List.length_append]; omega), Out.bind_ok]
      refine ⟨_, rfl, ?_, ?_⟩
      · rw [hd, List.drop_zero]
        have e : slice (f.linkto ++ [0]) 0 (min len f.linkto.length) = f.linkto.take len := by
          unfold slice
          rw [List.drop_zero, List.take_append_of_le_length (by omega)]
          rw [← List.take_take, List.take_length]
        rw [e]
        have e2 : f.linkto.take len ++ zeros (min (len - min len f.linkto.length) (cpio.contentLen - (0 + min len f.linkto.length))) =
            (f.linkto ++ zeros (cpioPadding f.linkto.length)).take len := by
          rw [List.take_append]
          unfold zeros
          rw [List.take_replicate]
          congr 2
          omega
        rw [e2]
        exact List.take_prefix _ _
      · rw [List.length_append, zeros_length, slice_length (by rw [List.length_append]; omega)]
        omega
  · have e0 : (if f.linkto.length < fileOff then 0 else f.linkto.length) = 0 := if_pos hgt
    rw [e0, Nat.min_zero, if_pos rfl, Out.bind_ok]
    refine ⟨_, rfl, ?_, by rw [List.nil_append, zeros_length]; omega⟩
    rw [hd, List.nil_append, List.drop_append, List.drop_eq_nil_of_le (by omega), List.nil_append]
    unfold zeros
    rw [List.drop_replicate]
    exact ⟨List.replicate (cpioPadding f.linkto.length - (fileOff - f.linkto.length) - min (len - 0) (cpio.contentLen - (fileOff + 0))) 0,
      by rw [List.replicate_append_replicate]; congr 1; omega⟩

/-- Opening a file. -/
theorem plNeed_ok (hk : FsOk r g ks) {x : Nat × FileInfo} (hx : x ∈ ks) (hr : isReg x.2 = true) (h0 : 0 < x.2.size)
    {s : PlSt} (hf : s.fd = none) :
    ∃ d e b, g x.2.name = some d ∧ d.length = x.2.size ∧ d <+: e ∧
      plNeed r x.2 s = .ok ((e, 0), ⟨s.k, some (e, 0), some b⟩) ∧
      ((b = true ∧ Prelinked r.disk x.2 d) ∨ (b = false ∧ Unchanged r.disk x.2 d)) := by
  obtain ⟨d, d1, d2, d3⟩ := hk.installed x hx hr
  unfold plNeed
  rw [hf]
  simp only
  rcases d3 with d3 | ⟨e, e1, e2, e3⟩ | ⟨e, e1, e2, e3, u, e4, e5⟩
  · omega
  · rw [e1]
    simp only
    rw [opened_unchanged e3, Out.bind_ok, if_neg (by decide)]
    exact ⟨d, e, false, d1, d2, e2, rfl, Or.inr ⟨rfl, e, e1, e2, e3⟩⟩
  · rw [e1]
    simp only
    unfold openedPrelinked
    rw [if_pos e2, e3, Out.bind_ok, if_pos rfl, e4, Out.bind_ok]
    exact ⟨d, u, true, d1, d2, e5, rfl, Or.inl ⟨rfl, e, e1, e2, e3, u, e4, e5⟩⟩

theorem zeros_prefix {n m : Nat} (h : n ≤ m) : zeros n <+: zeros m :=
  ⟨zeros (m - n), by unfold zeros; rw [List.replicate_append_replicate]; congr 1; omega⟩

/-- Reading from the file of an entry. -/
theorem plRead_ok (hk : FsOk r g ks) {E off len : Nat} {s : PlSt} (hs : PlInv r g ks E off s) {x : Nat × FileInfo}
    (hx : ks[s.k]? = some x) (hr : isReg x.2 = true) {d : Bytes} (d1 : g x.2.name = some d) (d2 : d.length = x.2.size)
    (h1 : contentStart g ks s.k x ≤ off) (hlt : off - contentStart g ks s.k x < x.2.size) :
    ∃ pre' e, d <+: e ∧ plRead r x.2 (off - contentStart g ks s.k x) len s =
        .ok (slice d (off - contentStart g ks s.k x) (min len (x.2.size - (off - contentStart g ks s.k x))),
          ⟨s.k, some (e, off - contentStart g ks s.k x + min len (x.2.size - (off - contentStart g ks s.k x))), pre'⟩) ∧
        (startOf g ks (s.k + 1) ≤ E ∨ (pre' = some true ∧ Prelinked r.disk x.2 d) ∨
            (pre' = some false ∧ Unchanged r.disk x.2 d)) := by
  have hm := List.mem_of_getElem? hx
  have hno := hs.noFd
  have hfo := hs.fdOk
  generalize hcs : contentStart g ks s.k x = cs at *
  unfold plRead
  rw [if_pos hlt]
  have hsl : (slice d (off - cs) (min len (x.2.size - (off - cs)))).length = min len (x.2.size - (off - cs)) :=
    slice_length (by omega)
  rcases hfd : s.fd with _ | ⟨d', p⟩
  · have h0 : off - cs = 0 := by
      have := hno hfd x hx hr
      rw [hcs] at this
      omega
    obtain ⟨d', e, b, n1, n2, n0, n3, n4⟩ := plNeed_ok hk hm hr (by omega) hfd
    rw [d1] at n1
    cases n1
    rw [n3, Out.bind_ok]
    simp only
    rw [← h0, slice_within n0 (by omega), if_neg (by rw [hsl]; simp)]
    refine ⟨_, e, n0, rfl, ?_⟩
    rcases n4 with ⟨n4, n5⟩ | ⟨n4, n5⟩
    · subst n4; exact Or.inr (Or.inl ⟨rfl, n5⟩)
    · subst n4; exact Or.inr (Or.inr ⟨rfl, n5⟩)
  · obtain ⟨y, y1, y2, y3, d'', y4, y0, y5, y6, y7⟩ := hfo d' p hfd
    rw [hx] at y1
    cases y1
    rw [d1] at y4
    cases y4
    rw [hcs] at y6
    have hp := y6 (by omega)
    subst hp
    have e : plNeed r x.2 s = .ok ((d', off - cs), s) := by unfold plNeed; rw [hfd]
    rw [e, Out.bind_ok]
    simp only
    rw [slice_within y0 (by omega), if_neg (by rw [hsl]; simp)]
    exact ⟨s.pre, d', y0, rfl, y7⟩

theorem wrap_sub {a b : Nat} (ha : a < 2^64) (h : b ≤ a) : (a + 2^64 - b) % 2^64 = a - b := by omega

/-- A part of the contents of a file. -/
theorem plFile_ok (hk : FsOk r g ks) {E off len : Nat} {s : PlSt} (hs : PlInv r g ks E off s) {x : Nat × FileInfo}
    (hx : ks[s.k]? = some x) (hr : isReg x.2 = true) (hl : isLnk x.2 ≠ true) {cpio : CpioFile}
    (hc : cpio.contentLen = (diskContent g x.2).length) (h1 : contentStart g ks s.k x ≤ off)
    (h2 : off < contentStart g ks s.k x + cpio.contentLen) (hlen : 0 < len) :
    ∃ b s', plFile r x.2 cpio (off - contentStart g ks s.k x) len s = .ok (b, s') ∧
      b <+: (diskContent g x.2).drop (off - contentStart g ks s.k x) ∧ 0 < b.length ∧ b.length ≤ len ∧
      off + b.length ≤ contentStart g ks s.k x + cpio.contentLen ∧ s'.k = s.k ∧
      ((s'.fd = none ∧ contentStart g ks s.k x + x.2.size ≤ off + b.length ∧
          (b.length = len ∨ off + b.length = contentStart g ks s.k x + cpio.contentLen)) ∨
       (∃ d e, s'.fd = some (e, off + b.length - contentStart g ks s.k x) ∧ g x.2.name = some d ∧ d <+: e ∧ b.length = len ∧
          contentStart g ks s.k x < off + b.length ∧ off + b.length < contentStart g ks s.k x + x.2.size ∧
          (startOf g ks (s.k + 1) ≤ E ∨ (s'.pre = some true ∧ Prelinked r.disk x.2 d) ∨
            (s'.pre = some false ∧ Unchanged r.disk x.2 d)))) := by
  have hm := List.mem_of_getElem? hx
  obtain ⟨d, d1, d2⟩ := hk.present x hm hr
  have hd : diskContent g x.2 = d ++ zeros (cpioPadding x.2.size) := by
    unfold diskContent; rw [if_neg hl, if_pos hr, d1]; rfl
  have hcl : cpio.contentLen = x.2.size + cpioPadding x.2.size := by
    rw [hc, hd, List.length_append, zeros_length, d2]
  have hfit := (hk.fits x hm).size
  have hpad := cpioPadding_lt x.2.size
  have h64 : cpio.contentLen < 2^64 := by omega
  have hread := fun h => plRead_ok (len := len) hk hs hx hr d1 d2 h1 h
  generalize hcs : contentStart g ks s.k x = cs at *
  obtain ⟨o, rfl⟩ : ∃ o, off = cs + o := ⟨off - cs, by omega⟩
  rw [Nat.add_sub_cancel_left] at *
  clear hs hk hcs hfit
  unfold plFile
  by_cases hlt : o < x.2.size
  · obtain ⟨pre', e, e0, e1, e2⟩ := hread hlt
    rw [e1, Out.bind_ok]
    simp only
    generalize hn : min len (x.2.size - o) = n at *
    have hsl : (slice d o n).length = n := slice_length (by omega)
    rw [hsl]
    by_cases hge : x.2.size ≤ o + n
    · rw [if_pos hge, wrap_sub h64 (by omega)]
      refine ⟨_, _, rfl, ?_, ?_, ?_, ?_, rfl, Or.inl ⟨rfl, ?_, ?_⟩⟩
      · rw [hd, List.drop_append_of_le_length (by omega)]
        have e : slice d o n = d.drop o := by
          unfold slice
          exact List.take_of_length_le (by rw [List.length_drop]; omega)
        rw [e]
        apply (List.prefix_append_right_inj _).mpr
        exact zeros_prefix (by omega)
      all_goals (rw [List.length_append, hsl, zeros_length]; omega)
    · rw [if_neg hge]
      refine ⟨_, _, rfl, ?_, ?_, ?_, ?_, rfl, Or.inr ⟨d, e, ?_, d1, e0, ?_, ?_, ?_, e2⟩⟩
      · rw [hd, List.drop_append_of_le_length (by omega)]
        unfold slice
        exact (List.take_prefix _ _).trans (List.prefix_append _ _)
      · rw [hsl]; omega
      · rw [hsl]; omega
      · rw [hsl]; omega
      · rw [hsl, Nat.add_assoc, Nat.add_sub_cancel_left]
      · rw [hsl]; omega
      · rw [hsl]; omega
      · rw [hsl]; omega
  · unfold plRead
    rw [if_neg hlt, Out.bind_ok]
    simp only [List.length_nil, Nat.add_zero, List.nil_append]
    rw [if_pos (by omega), wrap_sub h64 (by omega)]
    refine ⟨_, _, rfl, ?_, ?_, ?_, ?_, rfl, Or.inl ⟨rfl, ?_, ?_⟩⟩
    · rw [hd, List.drop_append, List.drop_eq_nil_of_le (by omega), List.nil_append, d2]
      have e : (zeros (cpioPadding x.2.size)).drop (o - x.2.size) =
          zeros (cpioPadding x.2.size - (o - x.2.size)) := List.drop_replicate
      rw [e]
      exact zeros_prefix (by omega)
    all_goals (rw [zeros_length]; omega)

theorem PlInv.fdNone {E off : Nat} {s : PlSt} (hs : PlInv r g ks E off s) {x : Nat × FileInfo} (hx : ks[s.k]? = some x)
    (h : isLnk x.2 = true ∨ isReg x.2 ≠ true ∨ off < contentStart g ks s.k x) : s.fd = none := by
  cases hf : s.fd with
  | none => rfl
  | some q =>
    obtain ⟨d, p⟩ := q
    obtain ⟨y, y1, y2, y3, _, y4, y0, y5, _⟩ := hs.fdOk d p hf
    rw [hx] at y1
    cases y1
    rcases h with h | h | h
    · exact absurd h y3
    · exact absurd y2 h
    · omega

/-- What is left of an entry, after its header. -/
theorem plContent_ok (hk : FsOk r g ks) (hsafe : PrelinkSafe r.disk g ks) (hch : ∃ y ∈ ks, Changed r.disk g y)
    {E off len : Nat} {s : PlSt} (hs : PlInv r g ks E off s) {x : Nat × FileInfo} (hx : ks[s.k]? = some x) {p : CpioFile}
    (p2 : p.offset = startOf g ks s.k) (p3 : p.headerLen = (alteredHeader x.2).length)
    (p4 : p.contentLen = (diskContent g x.2).length) (p5 : p.index = some x.1)
    (p6 : startOf g ks (s.k + 1) = contentStart g ks s.k x + (diskContent g x.2).length)
    (h1 : contentStart g ks s.k x ≤ off) (h2 : off ≤ startOf g ks (s.k + 1)) (hlen : 0 < len) (hdiv : 8192 ∣ off + len)
    (h3 : 0 < p.contentLen → off < startOf g ks (s.k + 1)) (h4 : p.contentLen = 0 → s.fd = none) :
    ∃ b s', plContent r p off len s = .ok (b, s') ∧ b <+: (diskContent g x.2).drop (off - contentStart g ks s.k x) ∧
      b.length ≤ len ∧ (0 < p.contentLen → 0 < b.length) ∧ off + b.length ≤ startOf g ks (s.k + 1) ∧ s'.k = s.k ∧
      PlInv r g ks E (off + b.length) s' ∧ PlTight g ks (off + b.length) s' := by
  have hm := List.mem_of_getElem? hx
  have hsum : p.offset + p.headerLen = contentStart g ks s.k x := by rw [contentStart_eq]; omega
  have hcs := contentStart_eq (g := g) (ks := ks) s.k x
  unfold plContent
  rw [if_neg (by omega), p5, hsum]
  simp only
  rw [rd_eq_ok.mpr (hk.files x hm), Out.bind_ok]
  by_cases hl : isLnk x.2 = true
  · rw [if_pos hl]
    have hno := hs.fdNone hx (Or.inl hl)
    have hreg : isReg x.2 ≠ true := by
      intro h
      unfold isReg at h; unfold isLnk at hl
      simp only [beq_iff_eq] at h hl
      rw [h] at hl
      revert hl
      decide
    have hdone : ∀ b : Bytes, b.length ≤ len → off + b.length ≤ startOf g ks (s.k + 1) →
        (off + b.length = startOf g ks (s.k + 1) ∨ b.length = len) →
        PlInv r g ks E (off + b.length) s ∧ PlTight g ks (off + b.length) s := by
      intro b b1 b2 b3
      refine ⟨⟨Or.inl ⟨x, hx, by omega, b2⟩, ?_, ?_, ?_⟩, ?_⟩
      · intro d q hq; rw [hno] at hq; cases hq
      · intro _ y hy hr
        rw [hx] at hy; cases hy
        exact absurd hr hreg
      · intro y _ _
        rcases b3 with b3 | b3
        · right; left; omega
        · right; right; rw [b3]; exact hdiv
      · intro d q hq; rw [hno] at hq; cases hq
    have hd : diskContent g x.2 = x.2.linkto ++ zeros (cpioPadding x.2.linkto.length) := by
      unfold diskContent; rw [if_pos hl]
    by_cases hz : p.contentLen = 0
    · have e0 : off - contentStart g ks s.k x = 0 := by omega
      have hl0 : x.2.linkto.length = 0 := by
        rw [hd, List.length_append] at p4; omega
      rw [e0]
      unfold plLink plTarget
      rw [hl0, hz]
      simp only [Nat.lt_irrefl, if_false, Nat.min_zero, if_true, Out.bind_ok, Nat.zero_sub, List.nil_append]
      obtain ⟨d1, d2⟩ := hdone [] (by simp) (by simpa using h2) (Or.inl (by simp; omega))
      exact ⟨[], s, rfl, List.nil_prefix, by simp, by simp, by simpa using h2, rfl, d1, d2⟩
    · have hlt := h3 (by omega)
      obtain ⟨b, b1, b2, b3⟩ := plLink_ok (f := x.2) (cpio := p) (fileOff := off - contentStart g ks s.k x) (len := len) hl p4
        (by omega) (by
          rcases hs.link x hx hl with q | q | ⟨j, q⟩
          · left; omega
          · omega
          · rcases Nat.lt_or_ge (contentStart g ks s.k x) off with hc | hc
            · exfalso
              have h5 := hsafe hch s.k x hx hl j
              have h6 := contentStart_four hk.present s.k x
              have h7 : (diskContent g x.2).length = x.2.linkto.length + cpioPadding x.2.linkto.length := by
                rw [hd, List.length_append, zeros_length]
              have h8 := four_pad x.2.linkto.length
              have h9 := cpioPadding_lt x.2.linkto.length
              omega
            · left; omega) hlen
      rw [b1, Out.bind_ok]
      obtain ⟨d1, d2⟩ := hdone b (by omega) (by omega) (by omega)
      exact ⟨b, s, rfl, b2, by omega, by omega, by omega, rfl, d1, d2⟩
  · rw [if_neg hl]
    by_cases hz : p.contentLen = 0
    · rw [if_neg (by omega)]
      have hno := h4 hz
      refine ⟨[], s, rfl, List.nil_prefix, by simp, by omega, by simpa using h2, rfl, by simpa using hs, ?_⟩
      intro d q hq; rw [hno] at hq; cases hq
    · rw [if_pos (by omega)]
      have hlt := h3 (by omega)
      have hreg : isReg x.2 = true := by
        by_cases h : isReg x.2 = true
        · exact h
        · exfalso
          apply hz
          rw [p4]
          unfold diskContent
          rw [if_neg hl, if_neg h]
          rfl
      obtain ⟨b, s', q1, q2, q3, q4, q5, q6, q7⟩ := plFile_ok (len := len) hk hs hx hreg hl p4 h1 (by omega) hlen
      rw [q1]
      refine ⟨b, s', rfl, q2, q4, fun _ => q3, by omega, q6, ⟨?_, ?_, ?_, ?_⟩, ?_⟩
      · rw [q6]; exact Or.inl ⟨x, hx, by omega, by omega⟩
      · intro d q hq
        rw [q6]
        rcases q7 with ⟨q7, _⟩ | ⟨d', e', w1, w2, w0, w3, w4, w5, w6⟩
        · rw [q7] at hq; cases hq
        · rw [w1] at hq
          cases hq
          exact ⟨x, hx, hreg, hl, d', w2, w0, by omega, fun _ => rfl, w6⟩
      · intro hq y hy _
        rw [q6] at hy ⊢
        rw [hx] at hy; cases hy
        rcases q7 with ⟨_, q7, _⟩ | ⟨d', e', w1, _⟩
        · omega
        · rw [w1] at hq; cases hq
      · intro y hy hly
        rw [q6, hx] at hy; cases hy
        exact absurd hly hl
      · intro d q hq y hy
        rw [q6] at hy ⊢
        rw [hx] at hy; cases hy
        rcases q7 with ⟨q7, _⟩ | ⟨d', e', w1, w2, w0, w3, w4, w5, w6⟩
        · rw [q7] at hq; cases hq
        · exact ⟨w4, w5⟩

/-- One round of the loop. -/
theorem plRound_ok (hk : FsOk r g ks) (hsafe : PrelinkSafe r.disk g ks) (hch : ∃ y ∈ ks, Changed r.disk g y)
    {E off len : Nat} {s : PlSt} (hs : PlInv r g ks E off s) (hoff : off < (diskArchive g ks).length) (hlen : 0 < len)
    (hdiv : 8192 ∣ off + len) :
    ∃ s1 p h b s2, plSkip r.places off r.places.length s = .ok s1 ∧ rd r.places s1.k = .ok p ∧
      plHeader r p off len = .ok h ∧ plContent r p (off + h.length) (len - h.length) s1 = .ok (b, s2) ∧
      padTake (diskArchive g ks) off len =
        h ++ b ++ padTake (diskArchive g ks) (off + h.length + b.length) (len - h.length - b.length) ∧
      0 < h.length + b.length ∧ h.length + b.length ≤ len ∧ PlInv r g ks E (off + h.length + b.length) s2 ∧
      PlTight g ks (off + h.length + b.length) s2 ∧
      (len - h.length - b.length = 0 ∨ off + h.length + b.length < (diskArchive g ks).length) := by
  obtain ⟨s1, e1, hs1, e2⟩ := plSkip_ok hk hs hoff
  have hend := @startOf_length g ks
  have htl : 0 < trailerBytes.length := by rw [trailerBytes_length]; omega
  rcases e2 with ⟨x, hx, x1, x2⟩ | ⟨he, x1⟩
  · obtain ⟨p, p1, p2, p3, p4, p5, p6, p7⟩ := hk.place hx
    have hm := List.mem_of_getElem? hx
    have hcs := contentStart_eq (g := g) (ks := ks) s1.k x
    have hlt : s1.k < ks.length := (List.getElem?_eq_some_iff.mp hx).1
    have hmono : startOf g ks (s1.k + 1) ≤ startOf g ks ks.length := startOf_mono hlt
    -- the header
    have hh : ∃ h, plHeader r p off len = .ok h ∧ h <+: (diskArchive g ks).drop off ∧
        h.length = min len (contentStart g ks s1.k x - off) := by
      unfold plHeader
      by_cases hc : off < contentStart g ks s1.k x
      · rw [if_pos (by omega), p5]
        simp only
        have hfl : fillHeader (some x.2) = alteredHeader x.2 := fillHeader_some (hk.fits x hm)
        have hsl : (slice (alteredHeader x.2) (off - startOf g ks s1.k)
            (min len (p.headerLen - (off - startOf g ks s1.k)))).length =
            min len (p.headerLen - (off - startOf g ks s1.k)) := slice_length (by omega)
        rw [rd_eq_ok.mpr (hk.files x hm), Out.bind_ok, hfl, p2, rdBlk_ok (by omega)]
        exact ⟨_, rfl, header_prefix hx x1 (by omega), by omega⟩
      · rw [if_neg (by omega)]
        exact ⟨[], rfl, List.nil_prefix, by simp; omega⟩
    obtain ⟨h, g1, g2, g3⟩ := hh
    have hs2 : PlInv r g ks E (off + h.length) s1 := by
      refine ⟨Or.inl ⟨x, hx, by omega, by omega⟩, ?_, ?_, ?_⟩
      · intro d q hq
        have : h.length = 0 := by
          rcases Nat.lt_or_ge off (contentStart g ks s1.k x) with hc | hc
          · rw [hs1.fdNone hx (Or.inr (Or.inr hc))] at hq; cases hq
          · omega
        rw [this, Nat.add_zero]
        exact hs1.fdOk d q hq
      · intro hq y hy hr
        have := hs1.noFd hq y hy hr
        rw [hx] at hy; cases hy
        omega
      · intro y hy hl
        have := hs1.link y hy hl
        rw [hx] at hy; cases hy
        rcases Nat.lt_or_ge off (contentStart g ks s1.k x) with hc | hc
        · left; omega
        · rw [show h.length = 0 by omega, Nat.add_zero]; exact this
    by_cases hz : len - h.length = 0
    · have hno : s1.fd = none := hs1.fdNone hx (Or.inr (Or.inr (by omega)))
      refine ⟨s1, p, h, [], s1, e1, rd_eq_ok.mpr p1, g1, ?_, ?_, ?_, ?_, ?_, ?_, ?_⟩
      · unfold plContent; rw [if_pos hz]
      · rw [padTake_step g2 (by omega)]; simp
      · simp; omega
      · simp; omega
      · simpa using hs2
      · intro d q hq; rw [hno] at hq; cases hq
      · left; simpa using hz
    · obtain ⟨b, s2, q1, q2, q3, q4, q5, q6, q7, q8⟩ := plContent_ok hk hsafe hch (len := len - h.length) hs2 hx p2 p3 p4 p5 p6
        (by omega) (by omega) (by omega) (by rwa [show off + h.length + (len - h.length) = off + len by omega])
        (fun _ => by omega) (fun h0 => hs1.fdNone hx (Or.inr (Or.inr (by omega))))
      refine ⟨s1, p, h, b, s2, e1, rd_eq_ok.mpr p1, g1, q1, ?_, ?_, by omega, q7, q8, ?_⟩
      · rw [padTake_step g2 (by omega), padTake_step (content_prefix hx (by omega) (by omega) q2) q3, List.append_assoc]
      · rcases Nat.eq_zero_or_pos p.contentLen with h0 | h0
        · omega
        · have := q4 h0; omega
      · right; omega
  · obtain ⟨p, p1, p2, p3, p4, p5⟩ := hk.placeEnd
    rw [he] at x1
    have hno : s1.fd = none := by
      cases hf : s1.fd with
      | none => rfl
      | some q =>
        obtain ⟨d, n⟩ := q
        obtain ⟨y, y1, _⟩ := hs1.fdOk d n hf
        rw [he] at y1
        have := (List.getElem?_eq_some_iff.mp y1).1
        omega
    have hsl : (slice trailerBytes (off - startOf g ks ks.length)
        (min len (p.headerLen - (off - startOf g ks ks.length)))).length =
        min len (p.headerLen - (off - startOf g ks ks.length)) := slice_length (by omega)
    have hpre : slice trailerBytes (off - startOf g ks ks.length)
        (min len (p.headerLen - (off - startOf g ks ks.length))) <+: (diskArchive g ks).drop off := by
      unfold startOf at x1 ⊢
      rw [List.take_length] at x1 ⊢
      unfold diskArchive
      rw [List.drop_append, List.drop_eq_nil_of_le (by omega), List.nil_append]
      exact List.take_prefix _ _
    have hcont : ∃ b, plContent r p (off + min len (p.headerLen - (off - startOf g ks ks.length)))
        (len - min len (p.headerLen - (off - startOf g ks ks.length))) s1 = .ok (b, s1) ∧
        b = zeros (len - min len (p.headerLen - (off - startOf g ks ks.length))) := by
      unfold plContent
      by_cases hz : len - min len (p.headerLen - (off - startOf g ks ks.length)) = 0
      · rw [if_pos hz, hz]; exact ⟨[], rfl, rfl⟩
      · rw [if_neg hz, p5]; exact ⟨_, rfl, rfl⟩
    obtain ⟨b, b1, b2⟩ := hcont
    have hbl : b.length = len - min len (p.headerLen - (off - startOf g ks ks.length)) := by rw [b2, zeros_length]
    refine ⟨s1, p, slice trailerBytes (off - startOf g ks ks.length)
        (min len (p.headerLen - (off - startOf g ks ks.length))), b, s1, e1, by rw [he]; exact rd_eq_ok.mpr p1,
        ?_, by rw [hsl]; exact b1, ?_, by omega, by omega, ⟨?_, ?_, ?_, ?_⟩, ?_, by left; omega⟩
    · unfold plHeader
      rw [if_pos (by omega), p5]
      simp only
      have hfl : fillHeader none = trailerBytes := fillHeader_none
      rw [hfl, p2, rdBlk_ok (by omega)]
    · rw [padTake_step hpre (by omega), hsl, hbl, Nat.sub_self, b2, List.append_assoc]
      generalize slice trailerBytes _ _ = hd
      refine congrArg (hd ++ ·) ?_
      by_cases hz : len - min len (p.headerLen - (off - startOf g ks ks.length)) = 0
      · rw [hz]; simp [padTake, zeros]
      · rw [padTake_end (by omega)]
        simp [padTake, zeros]
    · right; exact ⟨he, by rw [he]; omega⟩
    · intro d q hq; rw [hno] at hq; cases hq
    · intro _ y hy
      rw [he] at hy
      have := (List.getElem?_eq_some_iff.mp hy).1
      omega
    · intro y hy
      rw [he] at hy
      have := (List.getElem?_eq_some_iff.mp hy).1
      omega
    · intro d q hq; rw [hno] at hq; cases hq

/-- One block. -/
theorem plFill_ok (hk : FsOk r g ks) (hsafe : PrelinkSafe r.disk g ks) (hch : ∃ y ∈ ks, Changed r.disk g y) {E : Nat} :
    ∀ (fuel off len : Nat) (acc : Bytes) (s : PlSt), PlInv r g ks E off s → len < fuel → 8192 ∣ off + len →
      (len = 0 → PlTight g ks off s) → (len = 0 ∨ off < (diskArchive g ks).length) →
      ∃ s', plFill r fuel off len acc s = .ok (acc ++ padTake (diskArchive g ks) off len, s') ∧
        PlInv r g ks E (off + len) s' ∧ PlTight g ks (off + len) s' := by
  intro fuel
  induction fuel with
  | zero => intro off len acc s _ h; omega
  | succ fuel ih =>
    intro off len acc s hs hf hdiv ht ho
    rw [plFill]
    by_cases hz : len = 0
    · rw [if_pos hz]
      subst hz
      exact ⟨s, by simp [padTake, zeros], by simpa using hs, by simpa using ht rfl⟩
    rw [if_neg hz]
    obtain ⟨s1, p, h, b, s2, e1, e2, e3, e4, e5, e6, e7, e8, e9, e10⟩ :=
      plRound_ok hk hsafe hch hs (by omega) (by omega) hdiv
    rw [e1, Out.bind_ok, e2, Out.bind_ok, e3, Out.bind_ok, e4, Out.bind_ok]
    simp only
    have hsum : off + h.length + b.length + (len - h.length - b.length) = off + len := by omega
    obtain ⟨s', q1, q2, q3⟩ := ih (off + h.length + b.length) (len - h.length - b.length) (acc ++ h ++ b) s2 e8
      (by omega) (by rwa [hsum]) (fun _ => e9) e10
    rw [hsum] at q2 q3
    refine ⟨s', ?_, q2, q3⟩
    rw [q1, e5]
    simp only [List.append_assoc]

/-! ## The block to start from -/

/-- Block `j` begins inside a file that prelink changed. -/
def Inside (r : FsIn) (g : Bytes → Option Bytes) (ks : List (Nat × FileInfo)) (j : Nat) : Prop :=
  ∃ k x, ks[k]? = some x ∧ Changed r.disk g x ∧ contentStart g ks k x < 8192 * j ∧
    8192 * j < contentStart g ks k x + x.2.size

theorem Changed.not_unchanged {f : Nat × FileInfo} {d : Bytes} (hc : Changed r.disk g f) (h : Unchanged r.disk f.2 d) :
    False := by
  obtain ⟨_, d', _, e, e1, e2, e3, _⟩ := hc
  obtain ⟨e', w1, _, w2⟩ := h
  rw [e1] at w1
  cases w1
  rcases w2 with w2 | w2
  · exact e2 w2
  · rw [e3] at w2; cases w2

theorem plDown_ok (start : Nat) : ∀ n, start < 8192 * n →
    plDown start n < n ∧ 8192 * plDown start n ≤ start ∧ start < 8192 * (plDown start n + 1) := by
  intro n
  induction n with
  | zero => intro h; omega
  | succ n ih =>
    intro h
    rw [plDown]
    have e : n * blockSize = 8192 * n := by rw [show blockSize = 8192 from rfl, Nat.mul_comm]
    rw [e]
    split
    · have := ih (by assumption); omega
    · omega

theorem plEntry_ok (hk : FsOk r g ks) (off : Nat) : ∀ k, k < ks.length →
    ∃ k', plEntry r.places off k = .ok k' ∧ k' ≤ k ∧ startOf g ks k' ≤ off ∧ (k' = k ∨ off < startOf g ks (k' + 1)) := by
  intro k
  induction k with
  | zero =>
    intro h
    obtain ⟨x, hx⟩ : ∃ x, ks[0]? = some x := ⟨_, List.getElem?_eq_getElem h⟩
    obtain ⟨p, p1, p2, _⟩ := hk.place hx
    have h0 : startOf g ks 0 = 0 := rfl
    rw [plEntry, rd_eq_ok.mpr p1, Out.bind_ok, if_neg (by omega)]
    exact ⟨0, rfl, Nat.le_refl _, by omega, Or.inl rfl⟩
  | succ k ih =>
    intro h
    obtain ⟨x, hx⟩ : ∃ x, ks[k + 1]? = some x := ⟨_, List.getElem?_eq_getElem h⟩
    obtain ⟨p, p1, p2, _⟩ := hk.place hx
    rw [plEntry, rd_eq_ok.mpr p1, Out.bind_ok]
    split
    · obtain ⟨k', q1, q2, q3, q4⟩ := ih (by omega)
      refine ⟨k', q1, by omega, q3, Or.inr ?_⟩
      rcases q4 with q4 | q4
      · subst q4; omega
      · exact q4
    · exact ⟨k + 1, rfl, Nat.le_refl _, by omega, Or.inl rfl⟩

/-- What `plStart` is to find. -/
def Started (r : FsIn) (g : Bytes → Option Bytes) (ks : List (Nat × FileInfo)) (id id0 : Nat) (s : PlSt) : Prop :=
  id0 ≤ id ∧ (∀ j, id0 < j → j ≤ id → Inside r g ks j) ∧
    ∃ s', plSeek r id0 s = .ok s' ∧ PlInv r g ks (8192 * (id0 + 1)) (8192 * id0) s'

theorem lnk_not_reg {f : FileInfo} (hl : isLnk f = true) : isReg f ≠ true := by
  intro h
  unfold isReg at h; unfold isLnk at hl
  simp only [beq_iff_eq] at h hl
  rw [h] at hl
  revert hl
  decide

theorem started_closed {id k : Nat} {x : Nat × FileInfo} (hx : ks[k]? = some x) (h1 : startOf g ks k ≤ 8192 * id)
    (h2 : 8192 * id < startOf g ks (k + 1)) (pre : Option Bool)
    (hno : isReg x.2 = true → ¬ (contentStart g ks k x < 8192 * id ∧ 8192 * id < contentStart g ks k x + x.2.size)) :
    Started r g ks id id ⟨k, none, pre⟩ := by
  refine ⟨Nat.le_refl _, fun j a b => by omega, ⟨k, none, pre⟩, rfl, Or.inl ⟨x, hx, h1, by simp only; omega⟩, ?_, ?_, ?_⟩
  · intro d p h; cases h
  · intro _ y hy hr
    simp only at hy ⊢
    rw [hx] at hy; cases hy
    exact hno hr
  · intro y _ _
    exact Or.inr (Or.inr ⟨id, rfl⟩)

theorem plOpen_unchanged {f : FileInfo} {e : Bytes} {k : Nat} {pre : Option Bool} (h : r.disk.get f.name = some e)
    (hu : e.length = f.size ∨ isPrelinked e (e.take 128) = .ok false) :
    plOpen r f k pre = .ok (some ⟨k, some (e, 0), if e.length = f.size then pre else some false⟩) := by
  unfold plOpen
  rw [h]
  simp only
  by_cases hlen : e.length = f.size
  · rw [if_pos hlen, if_pos hlen]
  · rw [if_neg hlen, if_neg hlen, hu.resolve_left hlen, Out.bind_ok, if_neg (by decide)]

theorem plStart_ok (hk : FsOk r g ks) : ∀ (fuel id k : Nat) (pre : Option Bool)
    (x : Nat × FileInfo), ks[k]? = some x → Changed r.disk g x → contentStart g ks k x < 8192 * (id + 1) →
    8192 * id < startOf g ks (k + 1) → id < fuel →
    ∃ id0 s, plStart r fuel id k pre = .ok (id0, s) ∧ Started r g ks id id0 s := by
  intro fuel
  induction fuel with
  | zero => intro id k pre x _ _ _ _ h; omega
  | succ fuel ih =>
    intro id k pre x hx hc h1 h2 hf
    have hmul : id * blockSize = 8192 * id := by rw [show blockSize = 8192 from rfl, Nat.mul_comm]
    have hlt : k < ks.length := (List.getElem?_eq_some_iff.mp hx).1
    obtain ⟨k', e1, e2, e3, e4⟩ := plEntry_ok hk (id * blockSize) k hlt
    rw [hmul] at e3 e4
    have e5 : 8192 * id < startOf g ks (k' + 1) := by
      rcases e4 with e4 | e4
      · rw [e4]; exact h2
      · exact e4
    obtain ⟨y, hy⟩ : ∃ y, ks[k']? = some y := ⟨_, List.getElem?_eq_getElem (by omega)⟩
    have hm := List.mem_of_getElem? hy
    obtain ⟨p, p1, p2, p3, p4, p5, p6, p7⟩ := hk.place hy
    have hcs := contentStart_eq (g := g) (ks := ks) k' y
    rw [plStart, e1, Out.bind_ok]
    have hhere : (∃ s, plHere r id k' pre = .ok (some s) ∧ Started r g ks id id s) ∨
        (plHere r id k' pre = .ok none ∧ Changed r.disk g y ∧ contentStart g ks k' y < 8192 * id) := by
      unfold plHere
      rw [rd_eq_ok.mpr p1, Out.bind_ok, p5]
      simp only
      rw [hmul]
      by_cases hb : p.contentLen = 0 ∨ p.offset + p.headerLen ≥ 8192 * id
      · rw [if_pos hb]
        refine Or.inl ⟨_, rfl, started_closed hy e3 e5 pre ?_⟩
        intro hr hbad
        omega
      rw [if_neg hb, rd_eq_ok.mpr (hk.files y hm), Out.bind_ok]
      by_cases hl : isLnk y.2 = true
      · rw [if_pos hl]
        exact Or.inl ⟨_, rfl, started_closed hy e3 e5 pre (fun hr => absurd hr (lnk_not_reg hl))⟩
      rw [if_neg hl]
      have hreg : isReg y.2 = true := by
        by_cases h : isReg y.2 = true
        · exact h
        · exfalso
          apply hb
          left
          rw [p4]
          unfold diskContent
          rw [if_neg hl, if_neg h]
          rfl
      obtain ⟨d, d1, d2, d3⟩ := hk.installed y hm hreg
      unfold plOpen
      rcases d3 with d3 | ⟨e, w1, w2, w3⟩ | ⟨e, w1, w2, w3, w4⟩
      · exfalso
        apply hb
        left
        rw [p4]
        unfold diskContent
        rw [if_neg hl, if_pos hreg, d1, Option.getD_some, List.length_append, zeros_length, d2, d3]
        rfl
      · have hopen := plOpen_unchanged (k := k') (pre := pre) w1 w3
        unfold plOpen at hopen
        rw [hopen]
        left
        refine ⟨_, rfl, Nat.le_refl _, fun j a b => by omega, ?_⟩
        have hne : k' ≠ k := by
          intro he
          subst he
          rw [hx] at hy; cases hy
          exact hc.not_unchanged ⟨e, w1, w2, w3⟩
        have hle : startOf g ks (k' + 1) ≤ startOf g ks k := startOf_mono (by omega)
        have hcx := contentStart_eq (g := g) (ks := ks) k x
        unfold plSeek
        simp only
        rw [rd_eq_ok.mpr p1, Out.bind_ok, p5]
        simp only
        rw [rd_eq_ok.mpr (hk.files y hm), Out.bind_ok, hmul]
        refine ⟨_, rfl, Or.inl ⟨y, hy, e3, by simp only; omega⟩, ?_, ?_, ?_⟩
        · intro d' q hq
          simp only at hq ⊢
          cases hq
          refine ⟨y, hy, hreg, hl, d, d1, w2, by omega, ?_, Or.inl (by omega)⟩
          intro hlt'
          rw [if_pos (by omega)]
          omega
        · intro hq; simp only at hq; cases hq
        · intro z _ _
          exact Or.inr (Or.inr ⟨id, rfl⟩)
      · rw [w1]
        simp only
        rw [if_neg w2, w3, Out.bind_ok, if_pos rfl]
        exact Or.inr ⟨rfl, ⟨hreg, d, d1, e, w1, w2, w3, w4⟩, by omega⟩
    rcases hhere with ⟨s, q1, q2⟩ | ⟨q1, q2, q3⟩
    · rw [q1, Out.bind_ok]
      exact ⟨id, s, rfl, q2⟩
    · rw [q1, Out.bind_ok]
      simp only
      rw [rd_eq_ok.mpr p1, Out.bind_ok, show p.offset + p.headerLen = contentStart g ks k' y by omega]
      obtain ⟨w1, w2, w3⟩ := plDown_ok _ _ q3
      obtain ⟨id0, s, z1, z2, z3, z4⟩ := ih (plDown (contentStart g ks k' y) id) k' (some true) y hy q2 w3 (by omega) (by omega)
      refine ⟨id0, s, z1, by omega, ?_, z4⟩
      intro j j1 j2
      by_cases hj : j ≤ plDown (contentStart g ks k' y) id
      · exact z3 j j1 hj
      · have h6 := contentStart_four hk.present k' y
        have h7 : (diskContent g y.2).length = y.2.size + cpioPadding y.2.size := by
          obtain ⟨d, d1, d2⟩ := hk.present y hm q2.1
          unfold diskContent
          rw [if_neg (fun h => lnk_not_reg h q2.1), if_pos q2.1, d1, Option.getD_some, List.length_append, zeros_length, d2]
        have h8 := four_pad y.2.size
        have h9 := cpioPadding_lt y.2.size
        exact ⟨k', y, hy, q2, by omega, by omega⟩

/-! ## The blocks from there on -/

theorem inside_entry {off k k' : Nat} (h1 : startOf g ks k < off) (h2 : off < startOf g ks (k + 1))
    (h3 : startOf g ks k' ≤ off) (h4 : off ≤ startOf g ks (k' + 1)) : k' = k := by
  rcases Nat.lt_trichotomy k' k with h | h | h
  · have := startOf_mono (g := g) (ks := ks) (show k' + 1 ≤ k from h); omega
  · exact h
  · have := startOf_mono (g := g) (ks := ks) (show k + 1 ≤ k' from h); omega

/-- A file that prelink changed is still open where block `j` begins inside it. -/
theorem inside_open (hk : FsOk r g ks) {E j : Nat} {s : PlSt} (hs : PlInv r g ks E (8192 * j) s) (hi : Inside r g ks j)
    (hE : E ≤ 8192 * j) : ∃ q, s.fd = some q ∧ s.pre = some true := by
  obtain ⟨k, x, hx, hc, h1, h2⟩ := hi
  have hm := List.mem_of_getElem? hx
  have hreg := hc.1
  obtain ⟨p, p1, p2, p3, p4, p5, p6, p7⟩ := hk.place hx
  have hcs := contentStart_eq (g := g) (ks := ks) k x
  have hlt : k < ks.length := (List.getElem?_eq_some_iff.mp hx).1
  have hmono : startOf g ks (k + 1) ≤ startOf g ks ks.length := startOf_mono hlt
  obtain ⟨d, d1, d2⟩ := hk.present x hm hreg
  have hl : isLnk x.2 ≠ true := fun h => lnk_not_reg h hreg
  have hcl : x.2.size ≤ (diskContent g x.2).length := by
    unfold diskContent
    rw [if_neg hl, if_pos hreg, d1, List.length_append]
    simp only [Option.getD_some]
    omega
  have hkk : s.k = k := by
    rcases hs.inEntry with ⟨y, _, y1, y2⟩ | ⟨y1, y2⟩
    · exact inside_entry (by omega) (by omega) y1 y2
    · rw [y1] at y2; omega
  cases hf : s.fd with
  | none =>
    exfalso
    have := hs.noFd hf x (by rw [hkk]; exact hx) hreg
    rw [hkk] at this
    exact this ⟨h1, h2⟩
  | some q =>
    obtain ⟨d', n⟩ := q
    obtain ⟨y, y1, y2, y3, d'', y4, y0, y5, y6, y7⟩ := hs.fdOk d' n hf
    rw [hkk] at y1 y7
    rw [hx] at y1; cases y1
    rcases y7 with y7 | ⟨y7, _⟩ | ⟨_, y7⟩
    · omega
    · exact ⟨_, rfl, y7⟩
    · exfalso
      exact hc.not_unchanged y7

theorem plRun_ok (hk : FsOk r g ks) (hsafe : PrelinkSafe r.disk g ks) (hch : ∃ y ∈ ks, Changed r.disk g y)
    {cfg : CacheCfg} (hn : ∀ id, 8192 * id < (diskArchive g ks).length → id < cfg.nblk) {B : Nat → Bytes}
    (hB : ∀ id, B id = padTake (diskArchive g ks) (8192 * id) 8192) {a orig cnt E : Nat} :
    ∀ (fuel : Nat) (c : Cache FsSt) (id : Nat) (s : PlSt) (saved : Option Bytes),
      PlInv r g ks E (8192 * id) s → E ≤ 8192 * (id + 1) → 8192 * id < (diskArchive g ks).length →
      (∀ j, id < j → j ≤ orig → Inside r g ks j) → (orig < id → saved = some (B orig)) →
      FInv cfg B c cnt orig (some a) → a ∈ c.core → cfg.nblk < id + fuel →
      ∃ c', plRun cfg r a orig cnt fuel c id s saved = .ok c' ∧ FInv cfg B c' cnt orig (some a) ∧ a ∈ c'.core ∧
        (c'.heap a).type = .core ∧ (c'.heap a).id = orig ∧ (c'.heap a).buf = B orig ∧ c'.src = c.src := by
  intro fuel
  induction fuel with
  | zero =>
    intro c id s saved _ _ h _ _ _ _ hf
    have := hn id h
    omega
  | succ fuel ih =>
    intro c id s saved hs hE hoff hin hsav hinv ha hf
    have hmul : id * blockSize = 8192 * id := by rw [show blockSize = 8192 from rfl, Nat.mul_comm]
    have hid := hn id hoff
    have hend := @startOf_length g ks
    obtain ⟨s', e1, e2, e3⟩ := plFill_ok hk hsafe hch (blockSize + 1) (8192 * id) blockSize [] s hs (by omega)
      ⟨id + 1, by rw [show blockSize = 8192 from rfl]; omega⟩ (fun h => by cases h) (Or.inr hoff)
    have hnext : 8192 * id + blockSize = 8192 * (id + 1) := by rw [show blockSize = 8192 from rfl]; omega
    rw [hnext] at e2 e3
    rw [plRun, hmul, e1, Out.bind_ok]
    simp only [List.nil_append]
    rw [show padTake (diskArchive g ks) (8192 * id) blockSize = B id from (hB id).symm]
    -- the block is handed to the cache
    have hkeep : ∃ c1, plKeep cfg { c with heap := upd c.heap a { c.heap a with type := .core, id := id, buf := B id } } a id orig cnt =
        .ok c1 ∧ FInv cfg B c1 cnt orig (some a) ∧ a ∈ c1.core ∧ c1.src = c.src := by
      have h1 := hinv.setHole ha { c.heap a with type := .core, id := id, buf := B id }
      unfold plKeep
      split
      · exact ⟨_, rfl, h1, ha, rfl⟩
      · rw [maxRd, if_pos hid, Out.bind_ok]
        split
        · obtain ⟨c1, f1, f2, f3, f4, _⟩ := pushBlock_finv h1 ha (by simp [upd]) (by simp [upd]; exact hid) (by simp [upd])
          exact ⟨c1, f1, f2, f3, f4⟩
        · exact ⟨_, rfl, h1, ha, rfl⟩
    obtain ⟨c1, f1, f2, f3, f4⟩ := hkeep
    rw [f1, Out.bind_ok]
    have hdone : id ≥ orig → ∃ c', (match (if id = orig then some (B id) else saved) with
        | none => Out.ub
        | some b => .ok { c1 with heap := upd c1.heap a { c1.heap a with type := .core, id := orig, buf := b } }) = .ok c' ∧
        FInv cfg B c' cnt orig (some a) ∧ a ∈ c'.core ∧
        (c'.heap a).type = .core ∧ (c'.heap a).id = orig ∧ (c'.heap a).buf = B orig ∧ c'.src = c.src := by
      intro hge
      have hsv : (if id = orig then some (B id) else saved) = some (B orig) := by
        by_cases he : id = orig
        · rw [if_pos he, he]
        · rw [if_neg he]; exact hsav (by omega)
      rw [hsv]
      exact ⟨_, rfl, f2.setHole f3 _, f3, by simp [upd], by simp [upd], by simp [upd], f4⟩
    have hstop : (plStop s' = .ok true ∧ ¬ id < orig) ∨ (plStop s' = .ok false ∧ ∃ q, s'.fd = some q) := by
      have hopen : id < orig → ∃ q, s'.fd = some q ∧ s'.pre = some true := fun h =>
        inside_open hk e2 (hin (id + 1) (by omega) (by omega)) hE
      unfold plStop
      rcases hfd : s'.fd with _ | ⟨d, q⟩
      · left
        refine ⟨rfl, fun h => ?_⟩
        obtain ⟨q, q1, _⟩ := hopen h
        rw [hfd] at q1; cases q1
      · obtain ⟨x, x1, x2, x3, _, x4, x0, x5, x6, x7⟩ := e2.fdOk d q hfd
        have ht := e3 d q hfd x x1
        obtain ⟨p, p1, p2, p3, p4, p5, p6, p7⟩ := hk.place x1
        obtain ⟨d', d1, d2⟩ := hk.present x (List.mem_of_getElem? x1) x2
        have hcl : x.2.size ≤ (diskContent g x.2).length := by
          unfold diskContent
          rw [if_neg x3, if_pos x2, d1, List.length_append]
          simp only [Option.getD_some]
          omega
        rcases x7 with x7 | ⟨x7, _⟩ | ⟨x7, _⟩
        · omega
        · right; rw [x7]; exact ⟨rfl, _, rfl⟩
        · left
          rw [x7]
          refine ⟨rfl, fun h => ?_⟩
          obtain ⟨_, _, q2⟩ := hopen h
          rw [x7] at q2; cases q2
    rcases hstop with ⟨t1, t2⟩ | ⟨t1, ⟨d, q⟩, t2⟩
    · rw [t1, Out.bind_ok, if_pos rfl, if_neg t2]
      exact hdone (by omega)
    · rw [t1, Out.bind_ok, if_neg (by decide)]
      obtain ⟨x, x1, x2, x3, x4, x5, x6, x7⟩ := e2.fdOk d q t2
      have ht := e3 d q t2 x x1
      obtain ⟨p, p1, p2, p3, p4, p5, p6, p7⟩ := hk.place x1
      obtain ⟨d', d1, d2⟩ := hk.present x (List.mem_of_getElem? x1) x2
      have hcl : x.2.size ≤ (diskContent g x.2).length := by
        unfold diskContent
        rw [if_neg x3, if_pos x2, d1, List.length_append]
        simp only [Option.getD_some]
        omega
      have hmono : startOf g ks (s'.k + 1) ≤ startOf g ks ks.length :=
        startOf_mono ((List.getElem?_eq_some_iff.mp x1).1)
      obtain ⟨c', z1, z2, z3, z4, z5, z6, z7⟩ := ih c1 (id + 1) s' (if id = orig then some (B id) else saved) e2 (by omega)
        (by omega) (fun j j1 j2 => hin j (by omega) j2) (by
          intro h
          by_cases he : id = orig
          · rw [if_pos he, he]
          · rw [if_neg he]; exact hsav (by omega)) f2 f3 (by omega)
      exact ⟨c', z1, z2, z3, z4, z5, z6, z7.trans f4⟩

/-- `fillblock_filesystem`, with `fillblock_prelink`. -/
theorem diskFiller_fills (hk : FsOk r g ks) (hsafe : PrelinkSafe r.disk g ks) {cfg : CacheCfg}
    (hn : ∀ id, id < cfg.nblk ↔ 8192 * id < (diskArchive g ks).length) {B : Nat → Bytes}
    (hB : ∀ id, B id = padTake (diskArchive g ks) (8192 * id) 8192) : FillsAny cfg B (FsInv r g ks) (diskFiller cfg r) := by
  intro c a id cnt hid hinv ha hsrc
  unfold diskFiller
  rcases fsBlock_ok hk hsrc ((hn id).mp hid) with ⟨s', e1, e2⟩ | ⟨s', k, off, e1, e2, e3, e4, e5⟩
  · rw [e1, Out.bind_ok]
    simp only
    refine ⟨_, rfl, ?_, ha, Or.inr (by simp [upd]), by simp [upd], by simp [upd, hB], e2⟩
    exact (hinv.setMisc c.last c.cleanup c.rpmId s').setHole ha _
  · rw [e1, Out.bind_ok]
    simp only
    obtain ⟨x, d, x1, x2, x3, x4, x5, x6⟩ := e5
    have hc : Changed r.disk g x := ⟨x2, d, x3, x4⟩
    obtain ⟨p, p1, p2, p3, p4, p5, p6, p7⟩ := hk.place x1
    have hcs := contentStart_eq (g := g) (ks := ks) k x
    have hl : isLnk x.2 ≠ true := fun h => lnk_not_reg h x2
    have hd := (hk.present x (List.mem_of_getElem? x1) x2)
    obtain ⟨d', d1, d2⟩ := hd
    have hcl : x.2.size ≤ (diskContent g x.2).length := by
      unfold diskContent
      rw [if_neg hl, if_pos x2, d1, List.length_append]
      simp only [Option.getD_some]
      omega
    have hpl : (seqPlace x.1 x.2 (diskEntries g (ks.take k)).length) = p := by
      have := hk.entry x1
      rw [p1] at this
      exact (Option.some.inj this).symm
    unfold startOf at *
    obtain ⟨id0, s, z1, z2, z3, s2, z4, z5⟩ := plStart_ok hk (id + 1) id k none x x1 hc (by omega) (by
      unfold startOf; omega) (by omega)
    unfold plBlock
    rw [z1, Out.bind_ok]
    simp only
    rw [z4, Out.bind_ok]
    have hoff := (hn id).mp hid
    obtain ⟨c', w1, w2, w3, w4, w5, w6, w7⟩ := plRun_ok hk hsafe ⟨x, List.mem_of_getElem? x1, hc⟩ (fun id h => (hn id).mpr h) hB
      (a := a) (orig := id) (cnt := cnt) (cfg.nblk + 1) { c with src := s' } id0 s2 none z5 (Nat.le_refl _) (by omega) z3
      (fun h => by omega) (hinv.setMisc c.last c.cleanup c.rpmId s') ha (by omega)
    exact ⟨c', w1, w2, w3, Or.inl w4, w5, w6, by rw [w7]; exact e2⟩

end Drpm
