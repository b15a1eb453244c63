import Verif.PickSpec
import Verif.NewcLemmas
import Verif.Props.Sequence
import Verif.Props.Cpio
import Verif.MakeRuns
import Verif.Props.Files
/-!
# Reading the old package for any choice of files

As in `CpioRead.lean`, with an arbitrary choice of entries in place of the one that making a delta takes.
-/

namespace Drpm

/-! ## A choice of entries, as the program sees it -/

/-- An entry can stand for the file. -/
structure FitsEntry (files : List FileInfo) (archive : Bytes) (i : Nat) (f : FileInfo) (e : AEnt) : Prop where
  file : files[i]? = some f
  name : e.name = relName f
  size : isReg f = true → e.size = f.size
  padding : isReg f = true → slice archive (e.data + e.size) (cpioPadding e.size) = zeros (cpioPadding e.size)
  nodata : isReg f = false → isLnk f = false → e.size = 0
  fits : f.Fits

/-- Some entries, in the order of the archive. -/
inductive Picked (files : List FileInfo) (archive : Bytes) : List AEnt → List (Nat × FileInfo × AEnt) → Prop
  | done : Picked files archive [] []
  | take {i : Nat} {f : FileInfo} {e : AEnt} {es : List AEnt} {ks : List (Nat × FileInfo × AEnt)} :
      FitsEntry files archive i f e → Picked files archive es ks → Picked files archive (e :: es) ((i, f, e) :: ks)
  | leave {e : AEnt} {es : List AEnt} {ks : List (Nat × FileInfo × AEnt)} :
      Picked files archive es ks → Picked files archive (e :: es) ks

/-- The end of an archive is always picked from. -/
theorem Picked.empty (files : List FileInfo) (archive : Bytes) : ∀ es, Picked files archive es [] := by
  intro es
  induction es with
  | nil => exact .done
  | cons e es ih => exact .leave ih

/-- Number and metadata of the picked files. -/
def pickFiles (ks : List (Nat × FileInfo × AEnt)) : List (Nat × FileInfo) := ks.map (fun x => (x.1, x.2.1))

/-- The archive of the picked entries. -/
def pickData (archive : Bytes) (ks : List (Nat × FileInfo × AEnt)) : Bytes :=
  (ks.map (fun x => alteredHeader x.2.1 ++ alteredContent archive x.2.1 x.2.2)).flatten ++ trailerBytes

theorem picked_split {files : List FileInfo} {archive : Bytes} {i : Nat} {f : FileInfo} {e : AEnt} {ks : List (Nat × FileInfo × AEnt)} :
    ∀ {es}, Picked files archive es ((i, f, e) :: ks) → ∃ pre post, es = pre ++ e :: post ∧
      FitsEntry files archive i f e ∧ Picked files archive post ks := by
  intro es
  induction es with
  | nil => intro h; cases h
  | cons x es ih =>
    intro h
    cases h with
    | take h1 h2 => exact ⟨[], es, rfl, h1, h2⟩
    | leave h =>
      obtain ⟨pre, post, rfl, h2, h3⟩ := ih h
      exact ⟨x :: pre, post, rfl, h2, h3⟩

/-- The file as it would have to be for this library to choose it. -/
def FileInfo.steady (f : FileInfo) : FileInfo := { f with flags := 0, verify := 3 }

theorem keepFile_steady {archive : Bytes} {f : FileInfo} {e : AEnt} (hn : e.name = relName f) (hs : isReg f = true → e.size = f.size) :
    keepFile ⟨archive, [f.steady], false, 0, false, fun _ _ => false⟩ e.name e.size = some (0, f.steady) := by
  have h1 : (e.name == relName f.steady) = true := by rw [hn]; exact beq_self_eq_true _
  unfold keepFile
  simp only [List.findIdx?_cons, h1, if_true, List.getElem?_cons_zero, Bool.and_false, Bool.false_eq_true, if_false]
  rw [if_neg]
  intro h
  rw [Bool.and_eq_true] at h
  have := hs h.1
  have h2 := h.2
  rw [this] at h2
  simp [skipReg, FileInfo.steady] at h2

theorem FitsEntry.length {files : List FileInfo} {archive : Bytes} {i : Nat} {f : FileInfo} {e : AEnt} (h : FitsEntry files archive i f e)
    (hs : e.stop ≤ archive.length) (off : Nat) : (alteredContent archive f e).length = (seqPlace i f off).contentLen := by
  have hf : FilesFit ⟨archive, [f.steady], false, 0, false, fun _ _ => false⟩ := by
    intro g hg
    simp only [List.mem_singleton] at hg
    subst hg
    exact ⟨h.fits.mode, h.fits.rdev, h.fits.size, h.fits.linkto, h.fits.name⟩
  exact alteredContent_length hf (keepFile_steady h.name h.size) (fun a b => h.nodata a b) hs off

theorem FitsEntry.text {files : List FileInfo} {archive : Bytes} {i : Nat} {f : FileInfo} {e : AEnt} (h : FitsEntry files archive i f e)
    (hs : (slice archive e.data e.size).length = e.size) :
    usedText (usedOf archive (i, f, e)) = alteredHeader f ++ alteredContent archive f e := by
  have hf : f.steady.Fits := ⟨h.fits.mode, h.fits.rdev, h.fits.size, h.fits.linkto, h.fits.name⟩
  have := usedText_eq (m := ⟨archive, [f.steady], false, 0, false, fun _ _ => false⟩) (i := 0) (f := f.steady) (e := e) hf
    (keepFile_steady h.name h.size) hs (fun a b => h.nodata a b)
  exact this

/-! ## Reading -/

/-- The state of the source when `bytes` is what it still has to deliver (before zeros). -/
def PickInv (r : StdIn) (s : StdSrc) (bytes : Bytes) : Prop :=
  ∃ cur nxt, CurOk r s cur nxt ∧
    ((0 < s.pos ∧ (∃ c, r.places[s.pos - 1]? = some c ∧ c.index = none) ∧ bytes = cur) ∨
     ∃ es ks off off', nxt ≤ r.archive.length ∧ Entries r.archive nxt es ∧ ((es.map AEnt.name).Nodup ∧ Picked r.files r.archive es ks) ∧
      r.places.drop s.pos = seqPlaces (pickFiles ks) off ++ [trailerPlace off'] ∧
      (s.pos = 0 ∨ ∃ c, r.places[s.pos - 1]? = some c ∧ c.index ≠ none) ∧
      bytes = cur ++ pickData r.archive ks)

theorem stdNext_picked {r : StdIn} (hl : r.archive.length < 2^63) {s : StdSrc} {es : List AEnt} {ks : List (Nat × FileInfo × AEnt)} {off off' : Nat}
    (ho : s.arcOff ≤ r.archive.length) (he : Entries r.archive s.arcOff es) (hp : (es.map AEnt.name).Nodup ∧ Picked r.files r.archive es ks)
    (hd : r.places.drop s.pos = seqPlaces (pickFiles ks) off ++ [trailerPlace off']) :
    ∃ s', stdNext r s = .ok s' ∧ 0 < s'.left ∧ PickInv r s' (pickData r.archive ks) := by
  unfold stdNext
  cases ks with
  | nil =>
    simp only [pickFiles, List.map_nil, seqPlaces, List.nil_append] at hd
    obtain ⟨d1, d2⟩ := drop_eq_cons hd
    rw [rd_eq_ok.mpr d1, Out.bind_ok]
    simp only [trailerPlace]
    have hal : pickData r.archive [] = trailerBytes := rfl
    refine ⟨_, rfl, by simp only; omega, trailerBytes, s.arcOff, Or.inr ⟨trailerPlace off', by simpa using d1, ?_⟩,
      Or.inl ⟨by simp only; omega, ⟨trailerPlace off', by simpa using d1, rfl⟩, hal⟩⟩
    refine ⟨by rw [trailerBytes_length]; rfl, by simp only; rw [fillHeader_none, trailerBytes_length]; rfl,
      by simp [trailerPlace], [], by simp [trailerPlace], ?_, Or.inl ⟨rfl, rfl⟩⟩
    simp only [trailerPlace, fillHeader_none, List.append_nil]
    rw [if_pos (by omega), Nat.sub_self, List.drop_zero]
  | cons x ks =>
    obtain ⟨i, f, e⟩ := x
    obtain ⟨pre, post, h1, h2, h3⟩ := picked_split hp.2
    have k1 := h2.file
    have k2 := h2.name
    have hfit := h2.fits
    have hpost : (post.map AEnt.name).Nodup := by
      have := hp.1
      rw [h1] at this
      simp only [List.map_append, List.map_cons, List.nodup_append, List.nodup_cons] at this
      exact this.2.1.2
    rw [show pickFiles ((i, f, e) :: ks) = (i, f) :: pickFiles ks from rfl] at hd
    simp only [seqPlaces, List.cons_append] at hd
    obtain ⟨d1, d2⟩ := drop_eq_cons hd
    rw [rd_eq_ok.mpr d1, Out.bind_ok]
    have hidx : (seqPlace i f off).index = some i := rfl
    rw [hidx]
    simp only
    rw [rd_eq_ok.mpr k1, Out.bind_ok]
    have hne : ∀ p ∈ pre, p.name ≠ e.name := by
      have := hp.1
      rw [h1] at this
      simp only [List.map_append, List.map_cons, List.nodup_append, List.nodup_cons] at this
      intro p hpp
      exact this.2.2 p.name (List.mem_map_of_mem hpp) e.name (by simp)
    have hlen := entries_length hl he ho
    have he' := h1 ▸ he
    obtain ⟨c1, c2, c3⟩ := stdScan_spec hl pre (r.archive.length + 1) s.arcOff ho he' hne (by
      rw [h1] at hlen; simp only [List.length_append, List.length_cons] at hlen; omega)
    rw [← k2, c1, Out.bind_ok]
    simp only
    have hcl := h2.length c2 off
    have hhl : (alteredHeader f).length = (seqPlace i f off).headerLen := by rw [alteredHeader_length]; rfl
    have hal : pickData r.archive ((i, f, e) :: ks) = (alteredHeader f ++ alteredContent r.archive f e) ++ pickData r.archive ks := by
      unfold pickData
      simp only [List.map_cons, List.flatten_cons, List.append_assoc]
    -- where the archive is when the content starts
    have hpass : ∃ o, stdPass r f (seqPlace i f off) (e.size + cpioPadding e.size) e.data = .ok o ∧
        ∀ s' : StdSrc, s'.arcOff = o → (isLnk f = true → s'.linkto = f.linkto) →
          ContOk r (seqPlace i f off) s' (alteredContent r.archive f e) e.stop := by
      unfold stdPass
      by_cases hr : isReg f = true
      · have hnl : isLnk f = false := by
          cases hh : isLnk f
          · rfl
          · rw [isLnk_not_reg hh] at hr; cases hr
        rw [if_neg (by simp [hr]), if_neg (by
          rw [← hcl]
          unfold alteredContent
          rw [if_neg (by simp [hnl]), List.length_append, zeros_length,
            slice_length (by unfold AEnt.stop at c2; omega)]
          simp)]
        refine ⟨_, rfl, fun s' e1 e2 => Or.inr ⟨i, f, rfl, k1, Or.inr ⟨hnl, ?_, ?_, c2⟩⟩⟩
        · have : alteredContent r.archive f e = slice r.archive e.data (e.size + cpioPadding e.size) := by
            unfold alteredContent
            rw [if_neg (by simp [hnl]), ← h2.padding hr, slice_append_slice]
          rw [e1, this, slice_length (by unfold AEnt.stop at c2; omega)]
        · rw [e1]
          unfold alteredContent
          rw [if_neg (by simp [hnl]), List.length_append, zeros_length,
            slice_length (by unfold AEnt.stop at c2; omega)]
          unfold AEnt.stop
          omega
      · rw [if_pos (by simpa using hr), archiveRead_ok hl (by unfold AEnt.stop at c2; omega), Out.bind_ok]
        refine ⟨_, rfl, fun s' e1 e2 => ?_⟩
        have estop : e.data + (e.size + cpioPadding e.size) = e.stop := by unfold AEnt.stop; omega
        cases hlnk : isLnk f
        · left
          refine ⟨?_, by rw [e1, estop]⟩
          unfold alteredContent
          rw [if_neg (by simp [hlnk]), h2.nodata (by simpa using hr) hlnk]
          simp [zeros, cpioPadding, padding]
        · right
          refine ⟨i, f, rfl, k1, Or.inl ⟨hlnk, by rw [e1, estop], ?_, ?_⟩⟩
          · rw [e2 hlnk]; unfold alteredContent; rw [if_pos hlnk, List.length_append]; omega
          · rw [e2 hlnk]
            unfold alteredContent
            rw [if_pos hlnk, List.length_append, zeros_length, Nat.add_sub_cancel_left]
    obtain ⟨o, p1, p2⟩ := hpass
    rw [p1, Out.bind_ok]
    have hpos : 110 ≤ (alteredHeader f).length := by rw [alteredHeader_length]; omega
    refine ⟨_, rfl, by simp only; omega, alteredHeader f ++ alteredContent r.archive f e, e.stop,
      Or.inr ⟨seqPlace i f off, by simpa using d1, ?_⟩,
      Or.inr ⟨post, ks, _, off', c2, c3, ⟨hpost, h3⟩, by simp only; exact d2, Or.inr ⟨seqPlace i f off, by simpa using d1, by simp [hidx]⟩, hal⟩⟩
    refine ⟨by simp only [List.length_append]; omega, by simp only; rw [fillHeader_some hfit, hhl], by simp only; omega,
      alteredContent r.archive f e, by simp only; omega, ?_, p2 _ rfl (fun hh => by simp only; rw [if_pos hh])⟩
    simp only
    rw [if_pos (by omega), fillHeader_some hfit, Nat.sub_self, List.drop_zero]

theorem stdLoop_picked {r : StdIn} (hl : r.archive.length < 2^63) :
    ∀ (fuel len : Nat) (s : StdSrc) (bytes acc : Bytes), PickInv r s bytes →
      len + (if s.left = 0 then 2 else 1) ≤ fuel →
      ∃ s', stdLoop r fuel s len acc = .ok (acc ++ (bytes.take len ++ zeros (len - bytes.length)), s') ∧
        PickInv r s' (bytes.drop len) := by
  intro fuel
  induction fuel with
  | zero => intro len s bytes acc _ h; split at h <;> omega
  | succ fuel ih =>
    intro len s bytes acc hs hfu
    obtain ⟨cur, nxt, hc, hcase⟩ := hs
    have hleft : s.left = cur.length := by
      rcases hc with ⟨rfl, h, _⟩ | ⟨_, _, h, _⟩
      · simpa using h
      · exact h
    obtain ⟨s1, a1, a2, a3⟩ := stdEmit_spec hl hc len
    rw [stdLoop, a1, Out.bind_ok]
    simp only
    rw [List.length_take]
    rcases hcase with ⟨b1, ⟨c, b2, b3⟩, b4⟩ | ⟨es, ks, off, off', b1, b2, b3, b4, b5, b6⟩
    · -- at the trailer
      have hend : stdAtEnd r s1 = .ok true := by
        unfold stdAtEnd
        rw [a2, if_neg (by omega), rd_eq_ok.mpr b2, Out.bind_ok, b3]; rfl
      rw [hend, Out.bind_ok]
      have hinv : PickInv r s1 (bytes.drop len) :=
        ⟨cur.drop len, nxt, a3, Or.inl ⟨by omega, ⟨c, by rw [a2]; exact b2, b3⟩, by rw [b4]⟩⟩
      subst b4
      by_cases hlen : len - min len bytes.length > 0
      · rw [if_pos ⟨hlen, rfl⟩]
        refine ⟨s1, ?_, hinv⟩
        simp only [Out.ok.injEq, Prod.mk.injEq, and_true, List.append_assoc]
        congr 3
        omega
      · rw [if_neg (by simp [hlen]), if_pos (by omega)]
        refine ⟨s1, ?_, hinv⟩
        have : len - bytes.length = 0 := by omega
        rw [this]
        simp [zeros]
    · have hend : stdAtEnd r s1 = .ok false := by
        unfold stdAtEnd
        rw [a2]
        split
        · rfl
        · rcases b5 with h | ⟨c, h1, h2⟩
          · omega
          · rw [rd_eq_ok.mpr h1, Out.bind_ok]
            cases hci : c.index with
            | none => exact absurd hci h2
            | some _ => rfl
      rw [hend, Out.bind_ok, if_neg (by simp)]
      by_cases hlen : len ≤ cur.length
      · rw [if_pos (by omega)]
        refine ⟨s1, ?_, cur.drop len, nxt, a3, Or.inr ⟨es, ks, off, off', b1, b2, b3, by rw [a2]; exact b4, by rw [a2]; exact b5, ?_⟩⟩
        · have : len - bytes.length = 0 := by rw [b6, List.length_append]; omega
          rw [this, b6, List.take_append_of_le_length hlen]
          simp [zeros]
        · rw [b6, List.drop_append_of_le_length hlen]
      · rw [if_neg (by omega)]
        have hcd : cur.drop len = [] := List.drop_eq_nil_of_le (by omega)
        rw [hcd] at a3
        have harc : s1.arcOff = nxt := by
          rcases a3 with ⟨_, _, h⟩ | ⟨_, _, h⟩
          · exact h
          · exact (curAt_nil h).2
        obtain ⟨s2, d1, d2, d3⟩ := stdNext_picked (s := s1) hl (by rw [harc]; exact b1) (by rw [harc]; exact b2) b3
          (by rw [a2]; exact b4)
        rw [d1, Out.bind_ok]
        have hmin : min len cur.length = cur.length := by omega
        obtain ⟨s3, e1, e2⟩ := ih (len - min len cur.length) s2 (pickData r.archive ks) (acc ++ cur.take len) d3 (by
          rw [if_neg (by omega)]
          split at hfu <;> omega)
        refine ⟨s3, ?_, ?_⟩
        · rw [e1]
          simp only [Out.ok.injEq, Prod.mk.injEq, and_true, List.append_assoc]
          rw [b6, List.take_append, List.length_append, hmin, List.append_assoc]
          congr 4
          omega
        · rw [b6, List.drop_append, hcd, List.nil_append]
          rw [hmin] at e2
          exact e2

theorem std_picked {r : StdIn} (hl : r.archive.length < 2^63) {init : StdSrc} {data : Bytes} (h : PickInv r init data) :
    YieldsBlocks (stdStep r) init data := by
  have step : ∀ k, PickInv r (stdStates r init k) (data.drop (8192 * k)) →
      stdStep r (stdStates r init k) = .ok (dataBlock data k, stdStates r init (k + 1)) ∧
      PickInv r (stdStates r init (k + 1)) (data.drop (8192 * (k + 1))) := by
    intro k hk
    obtain ⟨s', e1, e2⟩ := stdLoop_picked hl (blockSize + 2) blockSize _ _ [] hk (by split <;> omega)
    have e1' : stdStep r (stdStates r init k) = .ok (dataBlock data k, s') := by
      unfold stdStep
      rw [e1]
      simp only [Out.ok.injEq, Prod.mk.injEq, and_true, List.nil_append]
      unfold dataBlock slice zeros
      congr 1
      rw [List.length_take]
      congr 1
      show 8192 - _ = 8192 - _
      omega
    have e3 : stdStates r init (k + 1) = s' := by rw [stdStates, e1']
    refine ⟨by rw [e3]; exact e1', ?_⟩
    rw [e3]
    rw [List.drop_drop] at e2
    exact e2
  have all : ∀ k, PickInv r (stdStates r init k) (data.drop (8192 * k)) := by
    intro k
    induction k with
    | zero => simpa [stdStates] using h
    | succ k ih => exact (step k ih).2
  exact ⟨stdStates r init, rfl, fun k _ => (step k (all k)).1⟩


/-! ## From the format to the program -/

theorem chosen_picked {files : List FileInfo} {archive : Bytes} {ents : List (Bytes × Bytes)} {used : List Used} (h : Chosen files ents used) :
    ∀ {es : List AEnt}, SeesAll true archive es ents → (∀ u ∈ used, u.file.Fits) →
      ∃ ks, Picked files archive es ks ∧ used = ks.map (usedOf archive) := by
  induction h with
  | done =>
    intro es hs _
    cases hs
    exact ⟨[], .done, rfl⟩
  | @take name data ents i f used h1 h2 h3 h4 _ ih =>
    intro es hs hf
    cases hs with
    | @cons e x es _ hx hs =>
      obtain ⟨ks, k1, k2⟩ := ih hs (fun u hu => hf u (List.mem_cons_of_mem _ hu))
      have hn : e.name = pathOf name := hx.name
      have hd : e.size = data.length := hx.size
      have hz : slice archive e.data e.size = data := hx.data
      refine ⟨(i, f, e) :: ks, .take ⟨h1, ?_, fun hr => ?_, fun _ => hx.padding rfl, fun a b => ?_, hf ⟨i, f, pathOf name, data⟩ List.mem_cons_self⟩ k1, ?_⟩
      · rw [hn]
        have := (samePath_iff f (pathOf name)).mpr h2
        simpa using this
      · rw [hd]; exact h3 hr
      · rw [hd, h4 a b]; rfl
      · rw [List.map_cons, ← k2]
        unfold usedOf
        simp only [hn, hz]
  | @leave x ents used _ ih =>
    intro es hs hf
    cases hs with
    | cons hx hs =>
      obtain ⟨ks, k1, k2⟩ := ih hs hf
      exact ⟨ks, .leave k1, k2⟩

theorem picked_fits {files : List FileInfo} {archive : Bytes} {es : List AEnt} {ks : List (Nat × FileInfo × AEnt)} (h : Picked files archive es ks) :
    ∀ x ∈ ks, x.2.2 ∈ es ∧ FitsEntry files archive x.1 x.2.1 x.2.2 := by
  induction h with
  | done => nofun
  | take h1 _ ih =>
    intro x hx
    rcases List.mem_cons.mp hx with rfl | hx
    · exact ⟨List.mem_cons_self, h1⟩
    · exact ⟨List.mem_cons_of_mem _ (ih x hx).1, (ih x hx).2⟩
  | leave _ ih => intro x hx; exact ⟨List.mem_cons_of_mem _ (ih x hx).1, (ih x hx).2⟩

theorem picked_nodup {files : List FileInfo} {archive : Bytes} {es : List AEnt} {ks : List (Nat × FileInfo × AEnt)} (h : Picked files archive es ks) :
    (es.map AEnt.name).Nodup → (ks.map (fun x => x.1)).Nodup := by
  induction h with
  | done => intro _; exact List.nodup_nil
  | @take i f e es ks h1 h2 ih =>
    intro hu
    rw [List.map_cons, List.nodup_cons] at hu ⊢
    refine ⟨fun hm => ?_, ih hu.2⟩
    rw [List.mem_map] at hm
    obtain ⟨⟨j, g, e'⟩, h3, h4⟩ := hm
    simp only at h4
    subst h4
    obtain ⟨h5, h6⟩ := picked_fits h2 _ h3
    have h7 := h6.file
    rw [h1.file] at h7
    simp only [Option.some.injEq] at h7
    exact hu.1 (by rw [h1.name, h7, ← h6.name]; exact List.mem_map_of_mem h5)
  | leave _ ih =>
    intro hu
    rw [List.map_cons, List.nodup_cons] at hu
    exact ih hu.2

theorem pickData_used {files : List FileInfo} {archive : Bytes} {es : List AEnt} {ks : List (Nat × FileInfo × AEnt)} (h : Picked files archive es ks)
    (hs : ∀ e ∈ es, (slice archive e.data e.size).length = e.size) : usedArchive (ks.map (usedOf archive)) = pickData archive ks := by
  have h1 : ∀ x ∈ ks, usedText (usedOf archive x) = (fun (x : Nat × FileInfo × AEnt) => alteredHeader x.2.1 ++ alteredContent archive x.2.1 x.2.2) x := by
    intro x hx
    obtain ⟨a, b⟩ := picked_fits h x hx
    exact b.text (hs _ a)
  have h2 : newcText 0 0 newcTrailerName [] = trailerBytes := by decide +kernel
  unfold usedArchive pickData
  rw [List.map_map, h2, ← List.map_congr_left h1]
  rfl

theorem seqMd5_sure {algo : Nat} {f : FileInfo} (hd : DigestOk algo f) : ∃ b, seqMd5 algo noCheck f = .ok b := by
  have hb : ∃ b, seqBody algo noCheck f = .ok b := by
    unfold seqBody
    split
    · exact ⟨_, rfl⟩
    · split
      · rename_i h
        rw [Bool.and_eq_true] at h
        have h0 : 0 < f.size := by
          have := h.2
          unfold seqFilesize at this
          rw [if_pos h.1] at this
          simpa using this
        obtain ⟨d, d1, _⟩ := fileDigest_sure h.1 h0 hd
        exact ⟨d, by unfold seqDigest noCheck; rw [d1, Out.bind_ok]; rfl⟩
      · exact ⟨_, rfl⟩
  obtain ⟨b, hb⟩ := hb
  exact ⟨_, by unfold seqMd5; rw [hb, Out.bind_ok]⟩

theorem md5Files_sure {algo : Nat} : ∀ (fs : List FileInfo), (∀ f ∈ fs, DigestOk algo f) → ∃ md, md5Files algo fs = .ok md := by
  intro fs
  induction fs with
  | nil => intro _; exact ⟨[], rfl⟩
  | cons f fs ih =>
    intro h
    obtain ⟨b, h1⟩ := seqMd5_sure (h f List.mem_cons_self)
    obtain ⟨md, h2⟩ := ih (fun g hg => h g (List.mem_cons_of_mem _ hg))
    exact ⟨b ++ md, by rw [md5Files, h1, Out.bind_ok, h2, Out.bind_ok]⟩

/-! ## The order -/

theorem filesOf_split (runs : List (Nat × Nat)) : ∀ (k : Nat) (r : Nat × Nat), runs[k]? = some r → filesBefore runs k + r.2 ≤ (filesOf runs).length := by
  induction runs with
  | nil => intro k r h; simp at h
  | cons q runs ih =>
    intro k r h
    rw [filesOf_cons, List.length_append, List.length_range']
    cases k with
    | zero =>
      simp only [List.getElem?_cons_zero, Option.some.injEq] at h
      subst h
      show 0 + _ ≤ _
      omega
    | succ k =>
      rw [List.getElem?_cons_succ] at h
      rw [filesBefore_succ]
      have := ih k r h
      omega

theorem orderIs_decode {fc : Nat} {code : Bytes} {order : List Nat} (h : OrderIs code order) (hlt : ∀ i ∈ order, i < fc) (hl : order.length ≤ fc) :
    decodeSeq fc code = .ok order := by
  obtain ⟨h1, h2, h3⟩ := h
  refine (C17_accepts fc code h1 order).mpr ⟨h2, h3.symm, fun k r hr => ⟨?_, ?_⟩⟩
  · have := filesOf_split _ k r hr
    rw [h3] at this
    omega
  · have hm := List.mem_of_getElem? hr
    have h0 : 0 < r.2 := orderRuns_pos _ _ _ r hm
    have : r.1 + r.2 - 1 ∈ order := by
      rw [← h3]
      unfold filesOf
      rw [List.mem_flatMap]
      exact ⟨r, hm, List.mem_range'_1.mpr ⟨by omega, by omega⟩⟩
    have := hlt _ this
    omega

/-- Expanding a sequence that names files gives these files, in their order. -/
theorem expand_named {H : Bytes → Bytes} {algo : Nat} {files : List FileInfo} {ks : List (Nat × FileInfo)}
    (hkf : ∀ k ∈ ks, files[k.1]? = some k.2) (hu : (ks.map (fun k => k.1)).Nodup) (hd : ∀ k ∈ ks, DigestOk algo k.2) {sequence : Bytes}
    (hh : sequence.take 16 = H ((ks.map fun k => fileRecord algo k.2).flatten)) (hlong : 16 ≤ sequence.length)
    (ho : OrderIs (sequence.drop 16) (ks.map (fun k => k.1))) (check : Bytes → Bytes → Nat → Out Unit) (hc : Passes check algo files) :
    decodeSeq files.length (sequence.drop 16) = .ok (ks.map (fun k => k.1)) ∧
    expandSeq H files algo check sequence = .ok (seqPlaces ks 0 ++ [trailerPlace (seqEnd ks 0)]) := by
  have hlt : ∀ i ∈ ks.map (fun k => k.1), i < files.length := by
    intro i hi
    rw [List.mem_map] at hi
    obtain ⟨x, hx, rfl⟩ := hi
    exact (List.getElem?_eq_some_iff.mp (hkf x hx)).1
  have hle := nodup_length_le _ _ hu hlt
  have d2 := orderIs_decode ho hlt hle
  obtain ⟨md, hmd⟩ := md5Files_sure (algo := algo) (ks.map (fun k => k.2)) (by
    intro f hf
    rw [List.mem_map] at hf
    obtain ⟨x, hx, rfl⟩ := hf
    exact hd x hx)
  have q := seqLoop_spec files algo check ks [] [] 0 md hkf
    (fun k hk d hd hr => hc k.2 (List.mem_of_getElem? (hkf k hk)) d hd hr) hmd
  have hr := md5Files_records _ _ hmd
  rw [List.map_map] at hr
  refine ⟨d2, ?_⟩
  unfold expandSeq
  rw [if_neg (by omega), d2, Out.bind_ok, q, Out.bind_ok]
  simp only [List.nil_append]
  rw [if_neg (by rw [hh, hr]; exact fun h => h rfl)]

/-- Expanding a sequence for a choice of files gives these files, in their order. -/
theorem expand_picked {H : Bytes → Bytes} {algo : Nat} {files : List FileInfo} {archive : Bytes} {es : List AEnt} {ks : List (Nat × FileInfo × AEnt)}
    (h : Picked files archive es ks) (hu : (es.map AEnt.name).Nodup) (hd : ∀ x ∈ ks, DigestOk algo x.2.1) {sequence : Bytes}
    (hs : SequenceOf H algo (ks.map (usedOf archive)) sequence) (check : Bytes → Bytes → Nat → Out Unit) (hc : Passes check algo files) :
    expandSeq H files algo check sequence = .ok (seqPlaces (pickFiles ks) 0 ++ [trailerPlace (seqEnd (pickFiles ks) 0)]) := by
  have hm1 : (pickFiles ks).map (fun k => k.1) = ks.map (fun x => x.1) := by
    unfold pickFiles; rw [List.map_map]; rfl
  have e1 : (ks.map (usedOf archive)).map (fun u => u.number) = ks.map (fun x => x.1) := by rw [List.map_map]; rfl
  have ho := hs.order
  rw [e1, ← hm1] at ho
  have hh := hs.hash
  have e2 : (ks.map (usedOf archive)).map (fun u => fileRecord algo u.file) = (pickFiles ks).map (fun k => fileRecord algo k.2) := by
    unfold pickFiles
    rw [List.map_map, List.map_map]
    rfl
  rw [e2] at hh
  have mem : ∀ k ∈ pickFiles ks, ∃ x ∈ ks, k = (x.1, x.2.1) := by
    intro k hk
    unfold pickFiles at hk
    rw [List.mem_map] at hk
    obtain ⟨x, h1, rfl⟩ := hk
    exact ⟨x, h1, rfl⟩
  refine (expand_named ?_ (by rw [hm1]; exact picked_nodup h hu) ?_ hh hs.long ho check hc).2
  · intro k hk
    obtain ⟨x, h1, rfl⟩ := mem k hk
    exact (picked_fits h x h1).2.file
  · intro k hk
    obtain ⟨x, h1, rfl⟩ := mem k hk
    exact hd x h1

/-! ## Installed files -/

theorem usedText_disk {get : Bytes → Option Bytes} {u : Used} (hf : u.file.Fits) (hp : SamePath u.file u.path)
    (hr : u.file.regular = true → u.data.length = u.file.size ∧ get u.file.name = some u.data)
    (hz : u.file.regular = false → u.file.link = false → u.data = []) :
    usedText u = diskEntry get (u.number, u.file) := by
  obtain ⟨i, f, path, data⟩ := u
  simp only at *
  have hn : path = relName f := by simpa using (samePath_iff f path).mpr hp
  subst hn
  have hd : slice data 0 data.length = data := by unfold slice; simp
  have h1 : FitsEntry [f] (data ++ zeros (cpioPadding data.length)) 0 f ⟨relName f, data.length, 0, 0⟩ := by
    refine ⟨rfl, rfl, fun h => (hr h).1, fun _ => ?_, fun a b => by rw [hz a b]; rfl, hf⟩
    show slice _ (0 + data.length) (cpioPadding data.length) = zeros (cpioPadding data.length)
    unfold slice
    rw [Nat.zero_add, List.drop_left, List.take_of_length_le (by rw [zeros_length]; omega)]
  have hs : slice (data ++ zeros (cpioPadding data.length)) 0 data.length = data := by
    unfold slice
    rw [List.drop_zero, List.take_left]
  have h2 := h1.text (by show (slice _ 0 data.length).length = data.length; rw [hs])
  have h3 : usedText (usedOf (data ++ zeros (cpioPadding data.length)) (0, f, ⟨relName f, data.length, 0, 0⟩)) = usedText ⟨i, f, relName f, data⟩ := by
    simp only [usedOf, usedText, hs]
  rw [h3] at h2
  rw [h2]
  unfold diskEntry
  refine congrArg (fun l => alteredHeader f ++ l) ?_
  unfold alteredContent diskContent
  by_cases hl : isLnk f = true
  · rw [if_pos hl, if_pos hl]
  · rw [if_neg hl, if_neg hl]
    simp only [hs]
    by_cases hrg : isReg f = true
    · rw [if_pos hrg, (hr hrg).2, (hr hrg).1]
      rfl
    · rw [if_neg hrg, hz (Bool.eq_false_iff.mpr hrg) (Bool.eq_false_iff.mpr hl)]
      rfl

theorem usedArchive_disk {algo : Nat} {files : List FileInfo} {disk : Disk} {get : Bytes → Option Bytes} {used : List Used}
    (h : DiskChoice algo files disk get used) : diskArchive get (usedFiles used) = usedArchive used := by
  have h2 : newcText 0 0 newcTrailerName [] = trailerBytes := by decide +kernel
  unfold diskArchive usedArchive diskEntries usedFiles
  rw [List.map_map, h2]
  refine congrArg (fun l => List.flatten l ++ trailerBytes) ?_
  refine List.map_congr_left (fun u hu => (usedText_disk (h.fit _ (List.mem_of_getElem? (h.listed u hu))) (h.path u hu) (fun hr => ?_) (h.nodata u hu)).symm)
  obtain ⟨a, b, _⟩ := h.regular u hu hr
  exact ⟨a, b⟩

theorem namedFiles_used {files : List FileInfo} : ∀ {used : List Used}, (∀ u ∈ used, files[u.number]? = some u.file) →
    namedFiles files (used.map (·.number)) = usedFiles used := by
  intro used
  induction used with
  | nil => intro _; rfl
  | cons u used ih =>
    intro h
    have := ih (fun v hv => h v (List.mem_cons_of_mem _ hv))
    unfold namedFiles usedFiles at this ⊢
    rw [List.map_cons, List.filterMap_cons, h u List.mem_cons_self, this]
    rfl

theorem nib_bit : ∀ d : Fin 16, (d.val &&& (1 <<< 3) ≠ 0) ↔ ¬ d.val < 8 := by decide

theorem foldl_short (fc : Nat) : ∀ (ds cur : List Nat) (s t : DecSt), (∀ d ∈ ds, d < 16) → s.shift = 3 * cur.length → cur.length ≤ 22 →
    ds.foldlM (decStep fc) s = .ok t → (∀ g ∈ (splitDigits cur ds).1, g.length ≤ 22) ∧ (splitDigits cur ds).2.length ≤ 22 := by
  intro ds
  induction ds with
  | nil => intro cur s t _ _ hc _; exact ⟨nofun, hc⟩
  | cons d ds ih =>
    intro cur s t hd hs hc h
    rw [List.foldlM_cons] at h
    obtain ⟨u, h1, h2⟩ := Out.bind_eq_ok.mp h
    have hd16 := hd d List.mem_cons_self
    have hds : ∀ x ∈ ds, x < 16 := fun x hx => hd x (List.mem_cons_of_mem _ hx)
    have hb := nib_bit ⟨d, hd16⟩
    simp only at hb
    have hcur : ∀ (v : Nat) {b : Nat}, shl64 v s.shift = .ok b → cur.length ≤ 21 := by
      intro v b hv
      unfold shl64 at hv
      split at hv
      · cases hv
      · omega
    rw [splitDigits]
    unfold decStep at h1
    by_cases h8 : d < 8
    · rw [if_pos h8]
      rw [if_neg (fun h => (hb.mp h) h8)] at h1
      obtain ⟨b, b1, h1⟩ := Out.bind_eq_ok.mp h1
      have hl := hcur _ b1
      have hu : u.shift = 0 := by
        dsimp only at h1
        split at h1
        · cases h1; rfl
        · split at h1
          · cases h1; rfl
          · split at h1
            · cases h1; rfl
            · obtain ⟨_, _, h1⟩ := Out.bind_eq_ok.mp h1
              cases h1; rfl
      obtain ⟨i1, i2⟩ := ih [] u t hds (by rw [hu]; rfl) (by simp) h2
      refine ⟨fun g hg => ?_, i2⟩
      rcases List.mem_cons.mp hg with rfl | hg
      · rw [List.length_append, List.length_singleton]; omega
      · exact i1 g hg
    · rw [if_neg h8]
      rw [if_pos (hb.mpr h8)] at h1
      obtain ⟨b, b1, h1⟩ := Out.bind_eq_ok.mp h1
      have hl := hcur _ b1
      cases h1
      exact ih (cur ++ [d - 8]) _ t hds (by simp only [List.length_append, List.length_singleton]; omega)
        (by rw [List.length_append, List.length_singleton]; omega) h2

/-- What the decoder accepts is an order in the format. -/
theorem decode_orderIs {fc : Nat} {code : Bytes} {order : List Nat} (h : decodeSeq fc code = .ok order) : OrderIs code order := by
  have hs : ShortNumbers code := by
    have h' := h
    unfold decodeSeq at h'
    obtain ⟨t, h1, _⟩ := Out.bind_eq_ok.mp h'
    rw [halfBytes_nibbles] at h1
    exact foldl_short fc _ [] _ t (halfBytes_lt code) rfl (by simp) h1
  obtain ⟨h1, h2, _⟩ := (C17_accepts fc code hs order).mp h
  exact ⟨hs, h1, h2.symm⟩

end Drpm
