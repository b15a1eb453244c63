import Verif.CpioMake
import Verif.Props.Blocks
/-!
# The old RPM of a standard delta, read block by block, is the altered archive
-/

namespace Drpm

theorem zeros_length (n : Nat) : (zeros n).length = n := List.length_replicate

/-! ## The layout -/

/-- The places of the kept files, from offset `off` on. -/
def seqPlaces : List (Nat × FileInfo) → Nat → List CpioFile
  | [], _ => []
  | (i, f) :: rest, off =>
    seqPlace i f off :: seqPlaces rest ((off + ((seqPlace i f off).headerLen + (seqPlace i f off).contentLen)) % 2^64)

/-- The offset after the kept files, which is that of the trailer. -/
def seqEnd : List (Nat × FileInfo) → Nat → Nat
  | [], off => off
  | (i, f) :: rest, off =>
    seqEnd rest ((off + ((seqPlace i f off).headerLen + (seqPlace i f off).contentLen)) % 2^64)

theorem seqMd5_check {algo : Nat} {check : Bytes → Bytes → Nat → Out Unit} {f : FileInfo} {b : Bytes}
    (hc : ∀ d, fileDigest algo f = .ok d → isReg f = true → 0 < seqFilesize f → check f.name d (seqFilesize f) = .ok ())
    (h : seqMd5 algo noCheck f = .ok b) : seqMd5 algo check f = .ok b := by
  unfold seqMd5 seqBody at h ⊢
  split
  · rename_i hl
    rw [if_pos hl] at h; exact h
  · rename_i hl
    rw [if_neg hl] at h
    split
    · rename_i hr
      rw [if_pos hr] at h
      unfold seqDigest noCheck at h
      unfold seqDigest
      rcases hd : fileDigest algo f with d | e | _ | _
      · rw [hd] at h
        simp only [Bool.and_eq_true] at hr
        rw [Out.bind_ok, hc d hd hr.1 (by simpa using hr.2), Out.bind_ok]
        exact h
      · rw [hd] at h; cases h
      · rw [hd] at h; cases h
      · rw [hd] at h; cases h
    · rename_i hr
      rw [if_neg hr] at h; exact h

theorem seqLoop_spec (files : List FileInfo) (algo : Nat) (check : Bytes → Bytes → Nat → Out Unit) :
    ∀ (ks : List (Nat × FileInfo)) (md : Bytes) (out : List CpioFile) (off : Nat) (b : Bytes),
      (∀ k ∈ ks, files[k.1]? = some k.2) →
      (∀ k ∈ ks, ∀ d, fileDigest algo k.2 = .ok d → isReg k.2 = true → 0 < seqFilesize k.2 → check k.2.name d (seqFilesize k.2) = .ok ()) →
      md5Files algo (ks.map (fun k => k.2)) = .ok b →
      seqLoop files algo check (ks.map (fun k => k.1)) md out off = .ok (md ++ b, out ++ seqPlaces ks off, seqEnd ks off) := by
  intro ks
  induction ks with
  | nil =>
    intro md out off b _ _ h
    cases h
    simp [seqLoop, seqPlaces, seqEnd]
  | cons k ks ih =>
    intro md out off b h1 h2 h
    obtain ⟨i, f⟩ := k
    simp only [List.map_cons, md5Files, Out.bind_eq_ok] at h
    obtain ⟨b1, m1, b2, m2, h⟩ := h
    cases h
    have hm := seqMd5_check (h2 (i, f) (by simp)) m1
    simp only [List.map_cons, seqLoop]
    rw [rd_eq_ok.mpr (h1 (i, f) (by simp)), Out.bind_ok, hm, Out.bind_ok]
    have e := ih (md ++ b1) (out ++ [seqPlace i f off])
      ((off + ((seqPlace i f off).headerLen + (seqPlace i f off).contentLen)) % 2^64) b2 (fun k hk => h1 k (by simp [hk]))
      (fun k hk => h2 k (by simp [hk])) m2
    rw [e]
    simp [seqPlaces, seqEnd]

/-! ## Headers -/

theorem alteredHeader_length (f : FileInfo) :
    (alteredHeader f).length = 110 + (relName f).length + 3 + cpioPadding (110 + (relName f).length + 3) := by
  simp only [alteredHeader, List.length_append, cpioHeaderWrite_length, zeros_length, List.length_cons, List.length_nil]
  have : 110 + 2 + (relName f).length + 1 = 110 + (relName f).length + 3 := by omega
  rw [this]

theorem trailerBytes_length : trailerBytes.length = 121 + cpioPadding 121 := by
  simp only [trailerBytes, List.length_append, cpioHeaderWrite_length, zeros_length]
  rfl

theorem fillHeader_some {f : FileInfo} (hf : f.Fits) : fillHeader (some f) = alteredHeader f := by
  unfold fillHeader
  simp only
  rw [entryHdr_namesize hf]
  have e : (cpioHeaderWrite (entryHdr f ((relName f).length + 1)) ++ [46, 47] ++ (relName f ++ [0])).length =
      110 + ((relName f).length + 1 + 2) := by
    simp only [List.length_append, cpioHeaderWrite_length, List.length_cons, List.length_nil]
    omega
  unfold overwrite
  rw [List.take_of_length_le (by omega), List.drop_eq_nil_of_le (by omega), List.append_nil]
  unfold alteredHeader
  have e2 : 110 + ((relName f).length + 1 + 2) = 110 + 2 + (relName f).length + 1 := by omega
  rw [e2]
  simp only [List.append_assoc]

theorem fillHeader_none : fillHeader none = trailerBytes := by
  unfold fillHeader trailerBytes
  simp only [List.append_assoc]
  rfl

/-! ## One entry -/

/-- The content that is left, and where the archive is after it. -/
def ContOk (r : StdIn) (cpio : CpioFile) (s : StdSrc) (content : Bytes) (nxt : Nat) : Prop :=
  (content = [] ∧ s.arcOff = nxt) ∨
  ∃ i f, cpio.index = some i ∧ r.files[i]? = some f ∧
    ((isLnk f = true ∧ s.arcOff = nxt ∧ s.linkto.length ≤ content.length ∧
      content = s.linkto ++ zeros (content.length - s.linkto.length)) ∨
     (isLnk f = false ∧ content = slice r.archive s.arcOff content.length ∧ s.arcOff + content.length = nxt ∧
      nxt ≤ r.archive.length))

/-- What is left of the current entry, in the middle of it. -/
def CurAt (r : StdIn) (cpio : CpioFile) (s : StdSrc) (cur : Bytes) (nxt : Nat) : Prop :=
  s.left = cur.length ∧ s.hdr.length = cpio.headerLen ∧ s.left ≤ cpio.headerLen + cpio.contentLen ∧
  ∃ content, content.length = min s.left cpio.contentLen ∧
    cur = (if s.left > cpio.contentLen then s.hdr.drop (cpio.headerLen + cpio.contentLen - s.left) else []) ++ content ∧
    ContOk r cpio s content nxt

/-- What is left of the current entry, if there is one. -/
def CurOk (r : StdIn) (s : StdSrc) (cur : Bytes) (nxt : Nat) : Prop :=
  (cur = [] ∧ s.left = 0 ∧ s.arcOff = nxt) ∨ ∃ cpio, r.places[s.pos - 1]? = some cpio ∧ CurAt r cpio s cur nxt

theorem contOk_nil {r : StdIn} {cpio : CpioFile} {s : StdSrc} {nxt : Nat} (h : ContOk r cpio s [] nxt) :
    s.arcOff = nxt := by
  rcases h with ⟨_, h⟩ | ⟨i, f, _, _, ⟨_, h, _⟩ | ⟨_, _, h, _⟩⟩
  · exact h
  · exact h
  · simpa using h

/-- Changing what the content does not depend on. -/
theorem ContOk.congr {r : StdIn} {cpio : CpioFile} {s s' : StdSrc} {c : Bytes} {nxt : Nat} (h : ContOk r cpio s c nxt)
    (h1 : s'.arcOff = s.arcOff) (h2 : s'.linkto = s.linkto) : ContOk r cpio s' c nxt := by
  unfold ContOk at h ⊢
  rw [h1, h2]; exact h

theorem stdContent_spec {r : StdIn} (hl : r.archive.length < 2^63) {cpio : CpioFile} {s : StdSrc} {content : Bytes}
    {nxt n : Nat} (hc : ContOk r cpio s content nxt) (h0 : 0 < content.length) (hn : n ≤ content.length) :
    ∃ s', stdContent r cpio s n = .ok (content.take n, s') ∧ s'.pos = s.pos ∧ s'.left = s.left - n ∧
      s'.hdr = s.hdr ∧ ContOk r cpio s' (content.drop n) nxt := by
  rcases hc with ⟨h, _⟩ | ⟨i, f, hi, hf, ⟨k1, k2, k3, k4⟩ | ⟨k1, k2, k3, k4⟩⟩
  · subst h; simp at h0
  · unfold stdContent
    rw [hi]
    simp only
    rw [rd_eq_ok.mpr hf, Out.bind_ok, if_pos k1]
    refine ⟨{ s with linkto := s.linkto.drop (min s.linkto.length n), left := s.left - n }, ?_, rfl, rfl, rfl, ?_⟩
    · simp only [Out.ok.injEq, Prod.mk.injEq, and_true]
      rw [k4]
      unfold strncpy zeros
      rw [List.take_append, List.take_replicate]
      congr 2
      omega
    · right
      refine ⟨i, f, hi, hf, Or.inl ⟨k1, k2, ?_, ?_⟩⟩
      · simp only [List.length_drop]; omega
      · simp only [List.length_drop]
        have : (s.linkto ++ zeros (content.length - s.linkto.length)).drop n =
            s.linkto.drop (min s.linkto.length n) ++ zeros (content.length - n - (s.linkto.length - min s.linkto.length n)) := by
          rw [List.drop_append]
          unfold zeros
          rw [List.drop_replicate]
          by_cases hle : n ≤ s.linkto.length
          · rw [Nat.min_eq_right hle]
            congr 2
            omega
          · rw [Nat.min_eq_left (by omega), List.drop_eq_nil_of_le (by omega), List.drop_eq_nil_of_le (by omega)]
            congr 2
            omega
        rw [← this, ← k4]
  · unfold stdContent
    rw [hi]
    simp only
    rw [rd_eq_ok.mpr hf, Out.bind_ok, if_neg (by rw [k1]; decide), archiveRead_ok hl (by omega), Out.bind_ok]
    refine ⟨{ s with arcOff := s.arcOff + n, left := s.left - n }, ?_, rfl, rfl, rfl, ?_⟩
    · simp only [Out.ok.injEq, Prod.mk.injEq, and_true]
      rw [k2]
      unfold slice
      rw [List.take_take, Nat.min_eq_left (by omega)]
    · right
      refine ⟨i, f, hi, hf, Or.inr ⟨k1, ?_, ?_, k4⟩⟩
      · simp only [List.length_drop]
        have e := congrArg (List.drop n) k2
        rw [e]
        unfold slice
        rw [List.drop_take, List.drop_drop]
      · simp only [List.length_drop]; omega

theorem curAt_nil {r : StdIn} {cpio : CpioFile} {s : StdSrc} {nxt : Nat} (h : CurAt r cpio s [] nxt) :
    s.left = 0 ∧ s.arcOff = nxt := by
  obtain ⟨h1, h2, h3, content, h4, h5, h6⟩ := h
  have : content = [] := by
    have := congrArg List.length h5
    simp only [List.length_nil, List.length_append] at this
    exact List.length_eq_zero_iff.mp (by omega)
  subst this
  exact ⟨by simpa using h1, contOk_nil h6⟩

theorem stdBody_spec {r : StdIn} (hl : r.archive.length < 2^63) {cpio : CpioFile} {s : StdSrc} {cur : Bytes}
    {nxt : Nat} (h : CurAt r cpio s cur nxt) (hle : s.left ≤ cpio.contentLen) (len : Nat) :
    ∃ s', stdBody r cpio s len = .ok (cur.take len, s') ∧ s'.pos = s.pos ∧ CurAt r cpio s' (cur.drop len) nxt := by
  obtain ⟨h1, h2, h3, content, h4, h5, h6⟩ := h
  rw [if_neg (by omega), List.nil_append] at h5
  subst h5
  unfold stdBody
  by_cases hb : len > 0 ∧ s.left > 0
  · rw [if_pos hb]
    obtain ⟨s', q1, q2, q3, q4, q5⟩ := stdContent_spec hl h6 (by omega) (n := min len s.left) (by omega)
    have e1 : cur.take (min len s.left) = cur.take len := by rw [h1, ← List.take_eq_take_min]
    have e2 : cur.drop (min len s.left) = cur.drop len := by
      by_cases hl : len ≤ s.left
      · rw [Nat.min_eq_left hl]
      · rw [Nat.min_eq_right (by omega), List.drop_eq_nil_of_le (by omega), List.drop_eq_nil_of_le (by omega)]
    rw [e1] at q1
    rw [e2] at q5
    refine ⟨s', q1, q2, by rw [q3, List.length_drop]; omega, by rw [q4]; exact h2, by omega, _, ?_, ?_, q5⟩
    · rw [q3, List.length_drop]; omega
    · rw [if_neg (by omega), List.nil_append]
  · rw [if_neg hb]
    refine ⟨s, ?_, rfl, ?_⟩
    · by_cases hz : len = 0
      · subst hz; simp
      · have : cur = [] := List.length_eq_zero_iff.mp (by omega)
        subst this; simp
    · have : cur.drop len = cur := by
        by_cases hz : len = 0
        · subst hz; simp
        · have : cur = [] := List.length_eq_zero_iff.mp (by omega)
          subst this; simp
      rw [this]
      exact ⟨h1, h2, h3, cur, h4, by rw [if_neg (by omega), List.nil_append], h6⟩

theorem stdHead_spec {r : StdIn} {cpio : CpioFile} {s : StdSrc} {cur : Bytes}
    {nxt : Nat} (h : CurAt r cpio s cur nxt) (len : Nat) :
    ∃ s' k, stdHead cpio s len = .ok (cur.take k, s') ∧ s'.pos = s.pos ∧ CurAt r cpio s' (cur.drop k) nxt ∧
      k ≤ len ∧ k ≤ cur.length ∧ (k = len ∨ s'.left ≤ cpio.contentLen) := by
  unfold stdHead
  split
  · rename_i hh
    obtain ⟨h1, h2, h3, content, h4, h5, h6⟩ := h
    rw [if_pos hh] at h5
    have hdl : (s.hdr.drop (cpio.headerLen + cpio.contentLen - s.left)).length = s.left - cpio.contentLen := by
      rw [List.length_drop]; omega
    simp only
    rw [rdBlk_ok (by omega), Out.bind_ok]
    refine ⟨{ s with left := s.left - min (s.left - cpio.contentLen) len }, min (s.left - cpio.contentLen) len, ?_, rfl, ?_, by omega,
      by omega, ?_⟩
    · simp only [Out.ok.injEq, Prod.mk.injEq, and_true]
      rw [h5, List.take_append_of_le_length (by omega)]
      rfl
    · refine ⟨?_, h2, ?_, content, ?_, ?_, h6.congr rfl rfl⟩
      · simp only [List.length_drop]; omega
      · simp only; omega
      · simp only; omega
      · rw [h5, List.drop_append_of_le_length (by omega), List.drop_drop]
        simp only
        congr 1
        split
        · congr 1
          omega
        · exact List.drop_eq_nil_of_le (by omega)
    · simp only; omega
  · exact ⟨s, 0, by simp, rfl, by simpa using h, by omega, by omega, Or.inr (by omega)⟩

theorem stdEmit_spec {r : StdIn} (hl : r.archive.length < 2^63) {s : StdSrc} {cur : Bytes} {nxt : Nat}
    (h : CurOk r s cur nxt) (len : Nat) :
    ∃ s', stdEmit r s len = .ok (cur.take len, s') ∧ s'.pos = s.pos ∧ CurOk r s' (cur.drop len) nxt := by
  unfold stdEmit
  rcases h with ⟨rfl, h2, h3⟩ | ⟨cpio, p1, p2⟩
  · rw [if_neg (by omega)]
    exact ⟨s, by simp, rfl, Or.inl ⟨by simp, h2, h3⟩⟩
  · by_cases h0 : s.left > 0
    · rw [if_pos h0, rd_eq_ok.mpr p1, Out.bind_ok]
      obtain ⟨s1, k, a1, a2, a3, a4, a5, a6⟩ := stdHead_spec p2 len
      rw [a1, Out.bind_ok]
      simp only
      rw [List.length_take, Nat.min_eq_left a5]
      by_cases hk : k = len
      · subst hk
        have : stdBody r cpio s1 (k - k) = .ok ([], s1) := by
          unfold stdBody; rw [if_neg (by omega)]
        rw [this, Out.bind_ok]
        exact ⟨s1, by simp, a2, Or.inr ⟨cpio, by rw [a2]; exact p1, a3⟩⟩
      · obtain ⟨s2, b1, b2, b3⟩ := stdBody_spec hl a3 (by omega) (len - k)
        rw [b1, Out.bind_ok]
        refine ⟨s2, ?_, by rw [b2, a2], Or.inr ⟨cpio, by rw [b2, a2]; exact p1, ?_⟩⟩
        · simp only [Out.ok.injEq, Prod.mk.injEq, and_true]
          have := List.take_add (l := cur) (i := k) (j := len - k)
          rw [← this]
          congr 1
          omega
        · rw [List.drop_drop] at b3
          have : k + (len - k) = len := by omega
          rw [this] at b3
          exact b3
    · rw [if_neg h0]
      have hz : cur = [] := List.length_eq_zero_iff.mp (by have := p2.1; omega)
      subst hz
      exact ⟨s, by simp, rfl, Or.inr ⟨cpio, p1, by simpa using p2⟩⟩

/-! ## Going to the next entry -/

theorem stdScan_spec {archive : Bytes} (hl : archive.length < 2^63) {e : AEnt} {post : List AEnt} :
    ∀ (pre : List AEnt) (fuel off : Nat), off ≤ archive.length → Entries archive off (pre ++ e :: post) →
      (∀ p ∈ pre, p.name ≠ e.name) → pre.length < fuel →
      stdScan archive e.name fuel off = .ok (e.size + cpioPadding e.size, e.data) ∧ e.stop ≤ archive.length ∧
        Entries archive e.stop post := by
  intro pre
  induction pre with
  | nil =>
    intro fuel off ho he _ hfu
    obtain ⟨fuel, rfl⟩ : ∃ k, fuel = k + 1 := ⟨fuel - 1, by simp at hfu; omega⟩
    rw [List.nil_append] at he
    cases he with
    | @entry _ o h name e' es' h1 h2 h3 h4 h5 =>
      obtain ⟨i1, i2, i3, i4⟩ := readHead_inv hl ho h1
      refine ⟨?_, h4, h5⟩
      have hs : o + cpioPadding (110 + h.namesize) ≤ archive.length := by
        rw [h3] at h4; simp only [AEnt.stop] at h4; omega
      rw [stdScan, h1, Out.bind_ok]
      simp only
      rw [if_neg h2, archiveRead_ok hl hs, Out.bind_ok]
      simp only
      rw [if_pos (by rw [h3]), h3]
  | cons p pre ih =>
    intro fuel off ho he hne hfu
    obtain ⟨fuel, rfl⟩ : ∃ k, fuel = k + 1 := ⟨fuel - 1, by omega⟩
    rw [List.cons_append] at he
    cases he with
    | @entry _ o h name e' es' h1 h2 h3 h4 h5 =>
      obtain ⟨i1, i2, i3, i4⟩ := readHead_inv hl ho h1
      have hstop : p.stop = o + cpioPadding (110 + h.namesize) + (h.filesize + cpioPadding h.filesize) := by
        rw [h3]; simp only [AEnt.stop]; omega
      rw [stdScan, h1, Out.bind_ok]
      simp only
      rw [if_neg h2, archiveRead_ok hl (by omega), Out.bind_ok]
      simp only
      have : stripDot name ≠ e.name := by
        have := hne p (by simp)
        rw [h3] at this; exact this
      rw [if_neg this, archiveRead_ok hl (by omega), Out.bind_ok]
      simp only
      rw [← hstop]
      exact ih fuel _ h4 h5 (fun q hq => hne q (by simp [hq])) (by simpa using hfu)

theorem entries_length {archive : Bytes} (hl : archive.length < 2^63) {off : Nat} {es : List AEnt}
    (h : Entries archive off es) : off ≤ archive.length → es.length + off ≤ archive.length := by
  induction h with
  | trailer h => intro ho; simpa using ho
  | @entry off o h name e es h1 h2 h3 h4 h5 ih =>
    intro ho
    obtain ⟨i1, i2, i3, i4⟩ := readHead_inv hl ho h1
    have := ih h4
    have : off + 1 ≤ e.stop := by rw [h3]; simp only [AEnt.stop]; omega
    simp only [List.length_cons]
    omega

/-- The entries are as `rpmbuild` writes them: no two have the same name, the padding after the
    data of kept regular files is zero, and kept entries that are neither regular files nor
    symbolic links have no data. -/
structure Plain (m : MakeIn) (es : List AEnt) : Prop where
  unique : (es.map AEnt.name).Nodup
  padding : ∀ e ∈ es, ∀ i f, keepFile m e.name e.size = some (i, f) → isReg f = true →
    slice m.archive (e.data + e.size) (cpioPadding e.size) = zeros (cpioPadding e.size)
  nodata : ∀ e ∈ es, ∀ i f, keepFile m e.name e.size = some (i, f) → isReg f = false → isLnk f = false → e.size = 0

theorem Plain.tail {m : MakeIn} {pre : List AEnt} {e : AEnt} {post : List AEnt} (h : Plain m (pre ++ e :: post)) :
    Plain m post := by
  obtain ⟨h1, h2, h3⟩ := h
  refine ⟨?_, fun x hx => h2 x (by simp [hx]), fun x hx => h3 x (by simp [hx])⟩
  simp only [List.map_append, List.map_cons, List.nodup_append, List.nodup_cons] at h1
  exact h1.2.1.2

theorem kept_split {m : MakeIn} {i : Nat} {f : FileInfo} {e : AEnt} {ks : List (Nat × FileInfo × AEnt)} :
    ∀ es, kept m es = (i, f, e) :: ks → ∃ pre post, es = pre ++ e :: post ∧
      keepFile m e.name e.size = some (i, f) ∧ kept m post = ks := by
  intro es
  induction es with
  | nil => intro h; simp [kept] at h
  | cons x es ih =>
    intro h
    rw [kept_cons] at h
    cases hk : keepFile m x.name x.size with
    | none =>
      rw [hk] at h
      obtain ⟨pre, post, rfl, h2, h3⟩ := ih h
      exact ⟨x :: pre, post, rfl, h2, h3⟩
    | some p =>
      obtain ⟨j, g⟩ := p
      rw [hk] at h
      simp only [List.cons.injEq, Prod.mk.injEq] at h
      obtain ⟨⟨rfl, rfl, rfl⟩, h⟩ := h
      exact ⟨[], es, rfl, hk, h⟩

/-- File numbers and metadata of the kept entries. -/
def keptFiles (m : MakeIn) (es : List AEnt) : List (Nat × FileInfo) := (kept m es).map (fun x => (x.1, x.2.1))

/-- The state of the source when `bytes` is what it still has to deliver (before zeros). -/
def SrcInv (m : MakeIn) (r : StdIn) (s : StdSrc) (bytes : Bytes) : Prop :=
  ∃ cur nxt, CurOk r s cur nxt ∧
    ((0 < s.pos ∧ (∃ c, r.places[s.pos - 1]? = some c ∧ c.index = none) ∧ bytes = cur) ∨
     ∃ es off off', nxt ≤ r.archive.length ∧ Entries r.archive nxt es ∧ Plain m es ∧
      r.places.drop s.pos = seqPlaces (keptFiles m es) off ++ [trailerPlace off'] ∧
      (s.pos = 0 ∨ ∃ c, r.places[s.pos - 1]? = some c ∧ c.index ≠ none) ∧
      bytes = cur ++ altered m es)

theorem alteredContent_length {m : MakeIn} (hf : FilesFit m) {e : AEnt} {i : Nat} {f : FileInfo}
    (hk : keepFile m e.name e.size = some (i, f)) (hn : isReg f = false → isLnk f = false → e.size = 0)
    (hs : e.stop ≤ m.archive.length) (off : Nat) :
    (alteredContent m.archive f e).length = (seqPlace i f off).contentLen := by
  obtain ⟨k1, k2, k3⟩ := keepFile_spec hk
  have hfit := keepFile_fits hf hk
  unfold alteredContent seqPlace
  simp only
  have hs' : e.data + e.size ≤ m.archive.length := by unfold AEnt.stop at hs; omega
  have := hfit.size
  have := hfit.linkto
  by_cases hlnk : isLnk f = true
  · rw [if_pos hlnk, seqFilesize_lnk hlnk, Nat.mod_eq_of_lt (show f.linkto.length < 2^32 by omega),
      List.length_append, zeros_length]
    have := cpioPadding_lt f.linkto.length
    omega
  · rw [if_neg hlnk, List.length_append, zeros_length, slice_length hs']
    have e1 : seqFilesize f = e.size := by
      unfold seqFilesize
      by_cases hr : isReg f = true
      · rw [if_pos hr, k3 hr]
      · rw [if_neg hr, if_neg hlnk, hn (by simpa using hr) (by simpa using hlnk)]
    have e2 : e.size + 3 < 2^32 := by
      by_cases hr : isReg f = true
      · rw [k3 hr]; omega
      · rw [hn (by simpa using hr) (by simpa using hlnk)]; omega
    rw [e1]
    have := cpioPadding_lt e.size
    omega

theorem drop_eq_cons {α : Type} {l : List α} {n : Nat} {x : α} {xs : List α} (h : l.drop n = x :: xs) :
    l[n]? = some x ∧ l.drop (n + 1) = xs := by
  constructor
  · have := List.getElem?_drop (xs := l) (i := n) (j := 0)
    rw [h] at this
    simpa using this.symm
  · rw [← List.drop_drop, h]; rfl

theorem stdNext_spec {m : MakeIn} {r : StdIn} (hl : r.archive.length < 2^63) (hf : FilesFit m)
    (hra : r.archive = m.archive) (hrf : r.files = m.files) {s : StdSrc} {es : List AEnt} {off off' : Nat}
    (ho : s.arcOff ≤ r.archive.length) (he : Entries r.archive s.arcOff es) (hp : Plain m es)
    (hd : r.places.drop s.pos = seqPlaces (keptFiles m es) off ++ [trailerPlace off']) :
    ∃ s', stdNext r s = .ok s' ∧ 0 < s'.left ∧ SrcInv m r s' (altered m es) := by
  unfold stdNext
  cases hk : kept m es with
  | nil =>
    have hkf : keptFiles m es = [] := by unfold keptFiles; rw [hk]; rfl
    rw [hkf] at hd
    simp only [seqPlaces, List.nil_append] at hd
    obtain ⟨d1, d2⟩ := drop_eq_cons hd
    rw [rd_eq_ok.mpr d1, Out.bind_ok]
    simp only [trailerPlace]
    have hal : altered m es = trailerBytes := by unfold altered alteredEntries; rw [hk]; rfl
    refine ⟨_, rfl, by simp only; omega, trailerBytes, s.arcOff, Or.inr ⟨trailerPlace off', by simpa using d1, ?_⟩,
      Or.inl ⟨by simp only; omega, ⟨trailerPlace off', by simpa using d1, rfl⟩, hal⟩⟩
    refine ⟨by rw [trailerBytes_length]; rfl, by simp only; rw [fillHeader_none, trailerBytes_length]; rfl,
      by simp [trailerPlace], [], by simp [trailerPlace], ?_, Or.inl ⟨rfl, rfl⟩⟩
    simp only [trailerPlace, fillHeader_none, List.append_nil]
    rw [if_pos (by omega), Nat.sub_self, List.drop_zero]
  | cons x ks =>
    obtain ⟨i, f, e⟩ := x
    obtain ⟨pre, post, h1, h2, h3⟩ := kept_split es hk
    obtain ⟨k1, k2, k3⟩ := keepFile_spec h2
    have hfit := keepFile_fits hf h2
    have hpost := h1 ▸ hp |>.tail
    have hkf : keptFiles m es = (i, f) :: keptFiles m post := by unfold keptFiles; rw [hk, h3]; rfl
    rw [hkf] at hd
    simp only [seqPlaces, List.cons_append] at hd
    obtain ⟨d1, d2⟩ := drop_eq_cons hd
    rw [rd_eq_ok.mpr d1, Out.bind_ok]
    have hidx : (seqPlace i f off).index = some i := rfl
    rw [hidx]
    simp only
    rw [hrf, rd_eq_ok.mpr k1, Out.bind_ok]
    have hne : ∀ p ∈ pre, p.name ≠ e.name := by
      have := hp.unique
      rw [h1] at this
      simp only [List.map_append, List.map_cons, List.nodup_append, List.nodup_cons] at this
      intro p hpp
      exact this.2.2 p.name (List.mem_map_of_mem hpp) e.name (by simp)
    have hlen := entries_length hl he ho
    have he' := h1 ▸ he
    obtain ⟨c1, c2, c3⟩ := stdScan_spec hl pre (r.archive.length + 1) s.arcOff ho he' hne (by
      rw [h1] at hlen; simp only [List.length_append, List.length_cons] at hlen; omega)
    rw [← k2, c1, Out.bind_ok]
    simp only
    have hmem : e ∈ es := by rw [h1]; simp
    have hcl := alteredContent_length hf h2 (hp.nodata e hmem i f h2) (hra ▸ c2) off
    have hhl : (alteredHeader f).length = (seqPlace i f off).headerLen := by rw [alteredHeader_length]; rfl
    have hal : altered m es = (alteredHeader f ++ alteredContent m.archive f e) ++ altered m post := by
      unfold altered alteredEntries
      rw [hk, h3]
      simp only [List.map_cons, List.flatten_cons, List.append_assoc]
    -- where the archive is when the content starts
    have hpass : ∃ o, stdPass r f (seqPlace i f off) (e.size + cpioPadding e.size) e.data = .ok o ∧
        ∀ s' : StdSrc, s'.arcOff = o → (isLnk f = true → s'.linkto = f.linkto) →
          ContOk r (seqPlace i f off) s' (alteredContent m.archive f e) e.stop := by
      unfold stdPass
      by_cases hr : isReg f = true
      · have hnl : isLnk f = false := by
          cases hh : isLnk f
          · rfl
          · rw [isLnk_not_reg hh] at hr; cases hr
        rw [if_neg (by simp [hr]), if_neg (by
          rw [← hcl]
          unfold alteredContent
          rw [if_neg (by simp [hnl]), List.length_append, zeros_length,
            slice_length (by rw [← hra]; unfold AEnt.stop at c2; omega)]
          simp)]
        refine ⟨_, rfl, fun s' e1 e2 => Or.inr ⟨i, f, rfl, by rw [hrf]; exact k1, Or.inr ⟨hnl, ?_, ?_, c2⟩⟩⟩
        · have : alteredContent m.archive f e = slice m.archive e.data (e.size + cpioPadding e.size) := by
            unfold alteredContent
            rw [if_neg (by simp [hnl]), ← hp.padding e hmem i f h2 hr, slice_append_slice]
          rw [e1, this, slice_length (by rw [← hra]; unfold AEnt.stop at c2; omega), hra]
        · rw [e1]
          unfold alteredContent
          rw [if_neg (by simp [hnl]), List.length_append, zeros_length,
            slice_length (by rw [← hra]; unfold AEnt.stop at c2; omega)]
          unfold AEnt.stop
          omega
      · rw [if_pos (by simpa using hr), archiveRead_ok hl (by unfold AEnt.stop at c2; omega), Out.bind_ok]
        refine ⟨_, rfl, fun s' e1 e2 => ?_⟩
        have estop : e.data + (e.size + cpioPadding e.size) = e.stop := by unfold AEnt.stop; omega
        cases hlnk : isLnk f
        · left
          refine ⟨?_, by rw [e1, estop]⟩
          unfold alteredContent
          rw [if_neg (by simp [hlnk]), hp.nodata e hmem i f h2 (by simpa using hr) hlnk]
          simp [zeros, cpioPadding, padding]
        · right
          refine ⟨i, f, rfl, by rw [hrf]; exact k1, Or.inl ⟨hlnk, by rw [e1, estop], ?_, ?_⟩⟩
          · rw [e2 hlnk]; unfold alteredContent; rw [if_pos hlnk, List.length_append]; omega
          · rw [e2 hlnk]
            unfold alteredContent
            rw [if_pos hlnk, List.length_append, zeros_length]
            congr 2
            omega
    obtain ⟨o, p1, p2⟩ := hpass
    rw [p1, Out.bind_ok]
    have hpos : 110 ≤ (alteredHeader f).length := by rw [alteredHeader_length]; omega
    refine ⟨_, rfl, by simp only; omega, alteredHeader f ++ alteredContent m.archive f e, e.stop,
      Or.inr ⟨seqPlace i f off, by simpa using d1, ?_⟩,
      Or.inr ⟨post, _, off', c2, c3, hpost, by simp only; exact d2, Or.inr ⟨seqPlace i f off, by simpa using d1, by simp [hidx]⟩, hal⟩⟩
    refine ⟨by simp only [List.length_append]; omega, by simp only; rw [fillHeader_some hfit, hhl], by simp only; omega,
      alteredContent m.archive f e, by simp only; omega, ?_, p2 _ rfl (fun hh => by simp only; rw [if_pos hh])⟩
    simp only
    rw [if_pos (by omega), fillHeader_some hfit, Nat.sub_self, List.drop_zero]

/-! ## Blocks -/

theorem stdLoop_spec {m : MakeIn} {r : StdIn} (hl : r.archive.length < 2^63) (hf : FilesFit m)
    (hra : r.archive = m.archive) (hrf : r.files = m.files) :
    ∀ (fuel len : Nat) (s : StdSrc) (bytes acc : Bytes), SrcInv m r s bytes →
      len + (if s.left = 0 then 2 else 1) ≤ fuel →
      ∃ s', stdLoop r fuel s len acc = .ok (acc ++ (bytes.take len ++ zeros (len - bytes.length)), s') ∧
        SrcInv m r s' (bytes.drop len) := by
  intro fuel
  induction fuel with
  | zero => intro len s bytes acc _ h; split at h <;> omega
  | succ fuel ih =>
    intro len s bytes acc hs hfu
    obtain ⟨cur, nxt, hc, hcase⟩ := hs
    have hleft : s.left = cur.length := by
      rcases hc with ⟨rfl, h, _⟩ | ⟨_, _, h, _⟩
      · simpa using h
      · exact h
    obtain ⟨s1, a1, a2, a3⟩ := stdEmit_spec hl hc len
    rw [stdLoop, a1, Out.bind_ok]
    simp only
    rw [List.length_take]
    rcases hcase with ⟨b1, ⟨c, b2, b3⟩, b4⟩ | ⟨es, off, off', b1, b2, b3, b4, b5, b6⟩
    · -- at the trailer
      have hend : stdAtEnd r s1 = .ok true := by
        unfold stdAtEnd
        rw [a2, if_neg (by omega), rd_eq_ok.mpr b2, Out.bind_ok, b3]; rfl
      rw [hend, Out.bind_ok]
      have hinv : SrcInv m r s1 (bytes.drop len) :=
        ⟨cur.drop len, nxt, a3, Or.inl ⟨by omega, ⟨c, by rw [a2]; exact b2, b3⟩, by rw [b4]⟩⟩
      subst b4
      by_cases hlen : len - min len bytes.length > 0
      · rw [if_pos ⟨hlen, rfl⟩]
        refine ⟨s1, ?_, hinv⟩
        simp only [Out.ok.injEq, Prod.mk.injEq, and_true, List.append_assoc]
        congr 3
        omega
      · rw [if_neg (by simp [hlen]), if_pos (by omega)]
        refine ⟨s1, ?_, hinv⟩
        have : len - bytes.length = 0 := by omega
        rw [this]
        simp [zeros]
    · have hend : stdAtEnd r s1 = .ok false := by
        unfold stdAtEnd
        rw [a2]
        split
        · rfl
        · rcases b5 with h | ⟨c, h1, h2⟩
          · omega
          · rw [rd_eq_ok.mpr h1, Out.bind_ok]
            cases hci : c.index with
            | none => exact absurd hci h2
            | some _ => rfl
      rw [hend, Out.bind_ok, if_neg (by simp)]
      by_cases hlen : len ≤ cur.length
      · rw [if_pos (by omega)]
        refine ⟨s1, ?_, cur.drop len, nxt, a3, Or.inr ⟨es, off, off', b1, b2, b3, by rw [a2]; exact b4, by rw [a2]; exact b5, ?_⟩⟩
        · have : len - bytes.length = 0 := by rw [b6, List.length_append]; omega
          rw [this, b6, List.take_append_of_le_length hlen]
          simp [zeros]
        · rw [b6, List.drop_append_of_le_length hlen]
      · rw [if_neg (by omega)]
        have hcd : cur.drop len = [] := List.drop_eq_nil_of_le (by omega)
        rw [hcd] at a3
        have harc : s1.arcOff = nxt := by
          rcases a3 with ⟨_, _, h⟩ | ⟨_, _, h⟩
          · exact h
          · exact (curAt_nil h).2
        obtain ⟨s2, d1, d2, d3⟩ := stdNext_spec (s := s1) hl hf hra hrf (by rw [harc]; exact b1) (by rw [harc]; exact b2) b3
          (by rw [a2]; exact b4)
        rw [d1, Out.bind_ok]
        have hmin : min len cur.length = cur.length := by omega
        obtain ⟨s3, e1, e2⟩ := ih (len - min len cur.length) s2 (altered m es) (acc ++ cur.take len) d3 (by
          rw [if_neg (by omega)]
          split at hfu <;> omega)
        refine ⟨s3, ?_, ?_⟩
        · rw [e1]
          simp only [Out.ok.injEq, Prod.mk.injEq, and_true, List.append_assoc]
          rw [b6, List.take_append, List.length_append, hmin, List.append_assoc]
          congr 4
          omega
        · rw [b6, List.drop_append, hcd, List.nil_append]
          rw [hmin] at e2
          exact e2

/-- The states of the source, one block after the other. -/
def stdStates (r : StdIn) (init : StdSrc) : Nat → StdSrc
  | 0 => init
  | k + 1 => match stdStep r (stdStates r init k) with
    | .ok (_, s) => s
    | _ => stdStates r init k

theorem std_yields {m : MakeIn} {r : StdIn} (hl : r.archive.length < 2^63) (hf : FilesFit m)
    (hra : r.archive = m.archive) (hrf : r.files = m.files) {init : StdSrc} {data : Bytes} (h : SrcInv m r init data) :
    YieldsBlocks (stdStep r) init data := by
  have step : ∀ k, SrcInv m r (stdStates r init k) (data.drop (8192 * k)) →
      stdStep r (stdStates r init k) = .ok (dataBlock data k, stdStates r init (k + 1)) ∧
      SrcInv m r (stdStates r init (k + 1)) (data.drop (8192 * (k + 1))) := by
    intro k hk
    obtain ⟨s', e1, e2⟩ := stdLoop_spec hl hf hra hrf (blockSize + 2) blockSize _ _ [] hk (by split <;> omega)
    have e1' : stdStep r (stdStates r init k) = .ok (dataBlock data k, s') := by
      unfold stdStep
      rw [e1]
      simp only [Out.ok.injEq, Prod.mk.injEq, and_true, List.nil_append]
      unfold dataBlock slice zeros
      congr 1
      rw [List.length_take]
      congr 1
      show 8192 - _ = 8192 - _
      omega
    have e3 : stdStates r init (k + 1) = s' := by rw [stdStates, e1']
    refine ⟨by rw [e3]; exact e1', ?_⟩
    rw [e3]
    rw [List.drop_drop] at e2
    exact e2
  have all : ∀ k, SrcInv m r (stdStates r init k) (data.drop (8192 * k)) := by
    intro k
    induction k with
    | zero => simpa [stdStates] using h
    | succ k ih => exact (step k ih).2
  exact ⟨stdStates r init, rfl, fun k _ => (step k (all k)).1⟩

end Drpm
