import Verif.CheckLemmas
import Verif.SeqMetaLemmas
import Verif.ColorLemmas
import Verif.Props.Prelink
import Verif.Props.Api
/-!
# C38, C55, C56, C58: checking installed files
-/

namespace Drpm

/-! ## Specification -/

/-- Digests have the length of their algorithm (0: MD5, 1: SHA-256). -/
def DigestLengths (sys : Sys) : Prop :=
  ∀ data, (sys.digest 0 data).length = 16 ∧ (sys.digest 1 data).length = 32

/-- A digest of a known algorithm. -/
def IsDigest (algo : Nat) (digest : Bytes) : Prop :=
  (algo = 0 ∧ digest.length = 16) ∨ (algo = 1 ∧ digest.length = 32)

/-- The file can be opened and no `read` fails. -/
def Readable (sys : Sys) (name c : Bytes) : Prop :=
  sys.content name = some c ∧ sys.readable name = true ∧ ∀ k, sys.reads name k ≠ none

/-- The first `read` is ready to deliver at least 64 bytes. -/
def FirstReadLong (sys : Sys) (name : Bytes) : Prop := ∀ n, sys.reads name 0 = some n → 64 ≤ n

/-- A file that is not prelinked, and for which this can be decided (see C39). -/
def NotPrelinked (sys : Sys) (name c : Bytes) : Prop :=
  c.take 4 ≠ [0x7F, 0x45, 0x4C, 0x46] ∨
  (FirstReadLong sys name ∧ c.length ≤ 0x7ffff000 ∧ (IsElf c → HasSections c → NamesUsable c) ∧ ¬ HasUndoSection c)

/-! ## C38 -/

theorem notPrelinked_detect {sys : Sys} {name c b : Bytes} {cap : Nat} (h : NotPrelinked sys name c) (hcap : 64 ≤ cap)
    (hb : readStep c cap (sys.reads name 0) = some b) : isPrelinked c b = .ok false := by
  rcases h with h | ⟨h1, h2, h3, h4⟩
  · obtain ⟨n, rfl, _⟩ := readStep_some hb
    exact isPrelinked_not_elf n h
  · unfold readStep at hb
    rw [Option.map_eq_some_iff] at hb
    obtain ⟨k, hk, rfl⟩ := hb
    have := h1 k hk
    obtain ⟨b, e1, e2⟩ := C39_partial c (min cap (max 1 k)) (Or.inl (by omega)) h2 h3
    rw [e1]
    cases b
    · rfl
    · exact absurd (e2.mp rfl) h4

theorem digestLen_ok {algo : Nat} {digest : Bytes} (h : IsDigest algo digest) : digestLen algo = .ok digest.length := by
  unfold digestLen
  rcases h with ⟨h1, h2⟩ | ⟨h1, h2⟩
  · rw [if_pos h1, h2]
  · rw [if_neg (by omega), if_pos h1, h2]

theorem digest_length {sys : Sys} (hs : DigestLengths sys) {algo : Nat} {digest : Bytes} (h : IsDigest algo digest)
    (data : Bytes) : (sys.digest algo data).length = digest.length := by
  rcases h with ⟨h1, h2⟩ | ⟨h1, h2⟩
  · rw [h1, h2]; exact (hs data).1
  · rw [h1, h2]; exact (hs data).2

/-- C38, full check. However `read` cuts the file into pieces: the check of a file that is not
    prelinked succeeds if the first `filesize` bytes have the recorded digest, and reports a mismatch
    otherwise. -/
theorem C38_full (sys : Sys) (hs : DigestLengths sys) (name c : Bytes) (hr : Readable sys name c) (algo : Nat)
    (digest : Bytes) (hd : IsDigest algo digest) (filesize : Nat)
    (hp : c.length ≤ filesize ∨ NotPrelinked sys name c) :
    checkFull sys name algo digest filesize =
      if sys.digest algo (c.take filesize) = digest then .ok () else .err .mismatch := by
  obtain ⟨r1, r2, r3⟩ := hr
  unfold checkFull
  rw [r1]
  simp only
  rw [if_pos r2, digestLen_ok hd, Out.bind_ok]
  by_cases hlen : c.length > filesize
  · rw [if_pos hlen]
    have hnp : NotPrelinked sys name c := by
      rcases hp with hp | hp
      · omega
      · exact hp
    unfold fullFirst
    rcases hb : readStep c bufferSize (sys.reads name 0) with _ | b
    · unfold readStep at hb
      rw [Option.map_eq_none_iff] at hb
      exact absurd hb (r3 0)
    · simp only
      rw [notPrelinked_detect hnp (by decide) hb, Out.bind_ok]
      obtain ⟨n, hbn, _, _⟩ := readStep_some hb
      have hbl : b.length = min n c.length := by rw [hbn, List.length_take]
      generalize hm : (if b.length > filesize then filesize else b.length) = m
      have hme : m = min filesize b.length := by rw [← hm]; split <;> omega
      unfold afterPrelink
      rw [if_neg (by decide)]
      obtain ⟨p, e1, _, e3⟩ := fullRest_spec sys name algo digest digest.length 1 (c.drop b.length) (filesize - m) (b.take m)
      rw [e1, e3 r3, compareDigest_eq _ rfl (digest_length hs hd _)]
      have : b.take m ++ (c.drop b.length).take (filesize - m) = c.take filesize := by
        have hbt : b.take m = c.take m := by rw [hbn, List.take_take]; congr 1; omega
        rw [hbt]
        by_cases hc : b.length ≤ filesize
        · have : m = b.length := by omega
          rw [this, show filesize = b.length + (filesize - b.length) by omega, List.take_add]
          simp
        · have : m = filesize := by omega
          rw [this]; simp
      rw [this]
  · rw [if_neg hlen]
    obtain ⟨p, e1, _, e3⟩ := fullRest_spec sys name algo digest digest.length 0 c filesize []
    rw [e1, e3 r3, List.nil_append, compareDigest_eq _ rfl (digest_length hs hd _)]

/-- C38, full check, in terms of the file that was packaged: unless the installed bytes happen to
    have the same digest without being the same, the check succeeds exactly for files that start with it. In particular, files that are too short
    or were changed are reported. (Bytes after the recorded size are not looked at.) -/
theorem C38_full_original (sys : Sys) (hs : DigestLengths sys) (name c : Bytes) (hr : Readable sys name c)
    (algo : Nat) (orig : Bytes) (hd : IsDigest algo (sys.digest algo orig))
    (hcol : sys.digest algo (c.take orig.length) = sys.digest algo orig → c.take orig.length = orig)
    (hp : c.length ≤ orig.length ∨ NotPrelinked sys name c) :
    checkFull sys name algo (sys.digest algo orig) orig.length = .ok () ↔ orig <+: c := by
  rw [C38_full sys hs name c hr algo _ hd orig.length hp]
  constructor
  · intro h
    split at h
    · rename_i he
      rw [List.prefix_iff_eq_take]
      exact (hcol he).symm
    · cases h
  · intro h
    rw [List.prefix_iff_eq_take] at h
    rw [if_pos (by rw [← h])]

/-- C38, full check, whatever happens (prelinked files, failing `read`s): a file that passes has
    the recorded digest, over what was read of the recorded size, or `prelink -u` gave such a file. -/
theorem C38_full_sound (sys : Sys) (hs : DigestLengths sys) (name : Bytes) (algo : Nat)
    (digest : Bytes) (hd : IsDigest algo digest) (filesize : Nat)
    (h : checkFull sys name algo digest filesize = .ok ()) :
    ∃ c, sys.content name = some c ∧
      ((∃ p, p <+: c.take filesize ∧ sys.digest algo p = digest) ∨
       (∃ n u, isPrelinked c (c.take n) = .ok true ∧ filesize < c.length ∧ sys.undo name = .ok u ∧
          sys.digest algo (u.take filesize) = digest)) := by
  have hcmp : ∀ data, compareDigest sys algo digest data digest.length = .ok () → sys.digest algo data = digest := by
    intro data hc
    rw [compareDigest_eq _ rfl (digest_length hs hd _)] at hc
    split at hc
    · assumption
    · cases hc
  unfold checkFull at h
  rcases hc : sys.content name with _ | c
  · rw [hc] at h; cases h
  rw [hc] at h
  simp only at h
  split at h
  rotate_left
  · cases h
  rw [digestLen_ok hd, Out.bind_ok] at h
  refine ⟨c, rfl, ?_⟩
  split at h
  · rename_i hlen
    unfold fullFirst at h
    rcases hb : readStep c bufferSize (sys.reads name 0) with _ | b
    · rw [hb] at h
      simp only at h
      obtain ⟨p, e1, e2, _⟩ := fullRest_spec sys name algo digest digest.length 1 c filesize []
      rw [e1, List.nil_append] at h
      exact Or.inl ⟨p, e2, hcmp _ h⟩
    · rw [hb] at h
      simp only at h
      obtain ⟨n, hbn, _, _⟩ := readStep_some hb
      have hbl : b.length = min n c.length := by rw [hbn, List.length_take]
      generalize hm : (if b.length > filesize then filesize else b.length) = m at h
      have hme : m = min filesize b.length := by rw [← hm]; split <;> omega
      rw [Out.bind_eq_ok] at h
      obtain ⟨pr, h1, h⟩ := h
      unfold afterPrelink at h
      split at h
      · rename_i hpr
        right
        unfold checkPrelink at h
        rw [Out.bind_eq_ok] at h
        obtain ⟨u, hu, h⟩ := h
        rw [digestLen_ok hd, Out.bind_ok] at h
        split at h
        · cases h
        · obtain ⟨p, failed, e1, e2, e3, e4⟩ := hashLoop_spec (sys.reads name) (filesize + 1) 0 u filesize [] (by omega)
          rw [e1, Out.bind_ok] at h
          simp only [List.nil_append] at h
          unfold prelinkResult at h
          split at h
          · cases h
          · rename_i hf
            rw [e3 (by simpa using hf)] at h
            exact ⟨n, u, by rw [← hbn, h1, hpr], hlen, hu, hcmp _ h⟩
      · left
        obtain ⟨p, e1, e2, _⟩ := fullRest_spec sys name algo digest digest.length 1 (c.drop b.length) (filesize - m) (b.take m)
        rw [e1] at h
        refine ⟨b.take m ++ p, ?_, hcmp _ h⟩
        have hbt : b.take m = c.take m := by rw [hbn, List.take_take]; congr 1; omega
        have hsplit : c.take filesize = c.take m ++ (c.drop b.length).take (filesize - m) := by
          by_cases hc : b.length ≤ filesize
          · have : m = b.length := by omega
            rw [this, show filesize = b.length + (filesize - b.length) by omega, List.take_add]
            simp
          · have : m = filesize := by omega
            rw [this]; simp
        rw [hsplit, hbt]
        exact (List.prefix_append_right_inj _).mpr e2
  · obtain ⟨p, e1, e2, _⟩ := fullRest_spec sys name algo digest digest.length 0 c filesize []
    rw [e1, List.nil_append] at h
    exact Or.inl ⟨p, e2, hcmp _ h⟩

/-- C38, size check of a file that is not prelinked. -/
theorem C38_size (sys : Sys) (name c : Bytes) (hr : Readable sys name c) (algo : Nat) (digest : Bytes) (filesize : Nat)
    (hp : c.length ≤ filesize ∨ NotPrelinked sys name c) :
    checkFilesize sys name algo digest filesize = if c.length = filesize then .ok () else .err .mismatch := by
  obtain ⟨r1, r2, r3⟩ := hr
  unfold checkFilesize
  rw [r1]
  simp only
  by_cases h1 : c.length = filesize
  · rw [if_pos h1, if_pos h1]
  rw [if_neg h1, if_neg h1]
  by_cases h2 : c.length > filesize
  · rw [if_pos h2, if_pos r2]
    rcases hb : readStep c 128 (sys.reads name 0) with _ | b
    · unfold readStep at hb
      rw [Option.map_eq_none_iff] at hb
      exact absurd hb (r3 0)
    · simp only
      rw [notPrelinked_detect (hp.resolve_left (by omega)) (by decide) hb, Out.bind_ok]
      rfl
  · rw [if_neg h2]

/-- C38, size check, whatever happens: a file that passes has the recorded size, or is longer and
    `prelink -u` gave a file with the recorded digest. -/
theorem C38_size_sound (sys : Sys) (hs : DigestLengths sys) (name : Bytes) (algo : Nat)
    (digest : Bytes) (hd : IsDigest algo digest) (filesize : Nat)
    (h : checkFilesize sys name algo digest filesize = .ok ()) :
    ∃ c, sys.content name = some c ∧ (c.length = filesize ∨
       (∃ n u, isPrelinked c (c.take n) = .ok true ∧ filesize < c.length ∧ sys.undo name = .ok u ∧
          sys.digest algo (u.take filesize) = digest)) := by
  unfold checkFilesize at h
  rcases hc : sys.content name with _ | c
  · rw [hc] at h; cases h
  rw [hc] at h
  simp only at h
  refine ⟨c, rfl, ?_⟩
  split at h
  · left; assumption
  split at h
  rotate_left
  · cases h
  rename_i hlen
  split at h
  rotate_left
  · cases h
  rcases hb : readStep c 128 (sys.reads name 0) with _ | b
  · rw [hb] at h; cases h
  rw [hb] at h
  simp only at h
  obtain ⟨n, hbn, _, _⟩ := readStep_some hb
  rw [Out.bind_eq_ok] at h
  obtain ⟨pr, h1, h⟩ := h
  unfold afterPrelink at h
  split at h
  · rename_i hpr
    right
    unfold checkPrelink at h
    rw [Out.bind_eq_ok] at h
    obtain ⟨u, hu, h⟩ := h
    rw [digestLen_ok hd, Out.bind_ok] at h
    split at h
    · cases h
    · obtain ⟨p, failed, e1, e2, e3, e4⟩ := hashLoop_spec (sys.reads name) (filesize + 1) 0 u filesize [] (by omega)
      rw [e1, Out.bind_ok] at h
      simp only [List.nil_append] at h
      unfold prelinkResult at h
      split at h
      · cases h
      · rename_i hf
        rw [e3 (by simpa using hf), compareDigest_eq _ rfl (digest_length hs hd _)] at h
        split at h
        · rename_i he
          exact ⟨n, u, by rw [← hbn, h1, hpr], hlen, hu, he⟩
        · cases h
  · cases h

/-- A system with one file: a digest that is the content itself, padded or cut. -/
def demoSys (c : Bytes) : Sys :=
  { content := fun n => if n = [47, 97] then some c else none
    readable := fun _ => true
    reads := fun _ k => some (k + 1)
    undo := fun _ => .err .other
    digest := fun algo data => (data ++ zeros 32).take (if algo = 0 then 16 else 32) }

example : DigestLengths (demoSys [1, 2, 3]) ∧ Readable (demoSys [1, 2, 3]) [47, 97] [1, 2, 3] ∧
    NotPrelinked (demoSys [1, 2, 3]) [47, 97] [1, 2, 3] ∧
    checkFull (demoSys [1, 2, 3]) [47, 97] 0 ([1, 2] ++ zeros 14) 2 = .ok () ∧
    checkFull (demoSys [1, 2, 3]) [47, 97] 0 ([1, 2] ++ zeros 14) 3 = .err .mismatch ∧
    checkFilesize (demoSys [1, 2, 3]) [47, 97] 0 ([1, 2] ++ zeros 14) 2 = .err .mismatch := by
  refine ⟨fun data => ?_, ⟨by decide +kernel, rfl, fun k h => by cases h⟩, Or.inl (by decide), by decide +kernel, by decide +kernel,
    by decide +kernel⟩
  simp [demoSys, zeros]

/-! ## C58 -/

theorem dumpHex_append (a b : Bytes) : dumpHex (a ++ b) = dumpHex a ++ dumpHex b := by
  simp [dumpHex, List.map_append, List.flatten_append]

/-- C58 for packages whose file digests have at most 65 characters: parsing a digest writes only
    inside the buffer of 32 bytes. Missing: longer digests, see `C58_violated`. -/
theorem C58_partial (algo : Nat) (f : FileInfo) (h : f.md5.length ≤ 65) : (fileDigest algo f).Defined := by
  have ho : digestOverruns f.md5 = false := by
    unfold digestOverruns
    have : ¬ f.md5.length / 2 > 32 := by omega
    simp [this]
  unfold fileDigest
  rw [ho]
  simp only [Bool.false_eq_true, if_false]
  split
  · split
    · exact Out.defined_ok _
    · exact Out.defined_err _
  · split
    · split
      · exact Out.defined_ok _
      · exact Out.defined_err _
    · exact Out.defined_ok _

/-- C58 fails: a package whose header gives a longer digest for a file, in hexadecimal digits,
    makes both making and applying a delta write behind the buffer. -/
theorem C58_violated (algo : Nat) (ha : algo = 0 ∨ algo = 1) (f : FileInfo) (d : Bytes) (hd : 32 < d.length)
    (hf : f.md5 = dumpHex d) : fileDigest algo f = .ub := by
  have ho : digestOverruns f.md5 = true := by
    unfold digestOverruns
    rw [hf, dumpHex_length]
    have h1 : (dumpHex d).take 66 = dumpHex (d.take 33) ++ [] := by
      have : dumpHex d = dumpHex (d.take 33) ++ dumpHex (d.drop 33) := by
        rw [← dumpHex_append, List.take_append_drop]
      rw [this, List.take_append_of_le_length (by rw [dumpHex_length, List.length_take]; omega),
        List.take_of_length_le (by rw [dumpHex_length, List.length_take]; omega), List.append_nil]
    rw [h1, parseHex_dumpHex_append _ [] (by decide)]
    simp [hd]
  unfold fileDigest
  rw [ho]
  simp only [if_true]
  rcases ha with h | h <;> subst h <;> rfl

example : ∃ f : FileInfo, f.md5 = dumpHex (zeros 64) ∧ isReg f = true ∧ seqMd5 1 noCheck f = .ub :=
  ⟨⟨[97], 0, dumpHex (zeros 64), 0, 1, 0o100644, 3, [], 0⟩, rfl, rfl, by decide +kernel⟩

/-! ## C55 -/

theorem seqLoop_checked {files : List FileInfo} {algo : Nat} {check : Bytes → Bytes → Nat → Out Unit} :
    ∀ ps md out off md' out' off', seqLoop files algo check ps md out off = .ok (md', out', off') →
      ∀ i ∈ ps, ∃ f, files[i]? = some f ∧ (isReg f = true → 0 < f.size →
        ∃ d, fileDigest algo f = .ok d ∧ check f.name d f.size = .ok ()) := by
  intro ps
  induction ps with
  | nil => intro md out off md' out' off' _ i hi; cases hi
  | cons j ps ih =>
    intro md out off md' out' off' h i hi
    rw [seqLoop, Out.bind_eq_ok] at h
    obtain ⟨f, h1, h⟩ := h
    rw [Out.bind_eq_ok] at h
    obtain ⟨b, h2, h⟩ := h
    rcases List.mem_cons.mp hi with rfl | hi
    · refine ⟨f, rd_eq_ok.mp h1, fun hr hs => ?_⟩
      unfold seqMd5 at h2
      rw [Out.bind_eq_ok] at h2
      obtain ⟨b', h3, _⟩ := h2
      unfold seqBody at h3
      have hfs : seqFilesize f = f.size := by unfold seqFilesize; rw [hr]; rfl
      have hnl : isLnk f = false := by
        simp only [isReg, isLnk, beq_iff_eq] at hr ⊢
        rw [hr]; rfl
      rw [hnl, hr, hfs] at h3
      simp only [Bool.false_eq_true, if_false, Bool.true_and, decide_eq_true_eq] at h3
      rw [if_pos hs] at h3
      unfold seqDigest at h3
      rw [Out.bind_eq_ok] at h3
      obtain ⟨d, h4, h3⟩ := h3
      rw [Out.bind_eq_ok] at h3
      obtain ⟨_, h5, _⟩ := h3
      rw [hfs] at h5
      exact ⟨d, h4, h5⟩
    · exact ih _ _ _ _ _ _ h i hi

/-- What a successful check has established about the files of a package: the sequence tells an order of
    some of them and, before that, the hash of their records (`orderRecords` in `SeqSpec.lean`); those that are
    regular and not empty passed what was asked for. -/
structure FilesChecked (H : Bytes → Bytes) (p : Pkg) (sequence : Bytes)
    (passed : Nat → Bytes → Bytes → Nat → Prop) : Prop where
  ok : ∃ files algo order, p.files = .ok files ∧ p.algo = .ok algo ∧
    16 ≤ sequence.length ∧ decodeSeq files.length (sequence.drop 16) = .ok order ∧
    sequence.take 16 = H (orderRecords algo files order) ∧
    ∀ i ∈ order, ∃ f, files[i]? = some f ∧
      (isReg f = true → 0 < f.size → ∃ d, fileDigest algo f = .ok d ∧ passed algo f.name d f.size)

theorem checkFiles_checked {sys : Sys} {H : Bytes → Bytes} {p : Pkg} {seq : Bytes} {mode : Int}
    (h : checkFiles sys H p seq mode = .ok ()) (passed : Nat → Bytes → Bytes → Nat → Prop)
    (hp : ∀ algo check, checkOf sys mode algo = .ok check → ∀ n d s, check n d s = .ok () → passed algo n d s) :
    FilesChecked H p seq passed := by
  unfold checkFiles at h
  rw [Out.bind_eq_ok] at h
  obtain ⟨files, h1, h⟩ := h
  rw [Out.bind_eq_ok] at h
  obtain ⟨algo, h2, h⟩ := h
  rw [Out.bind_eq_ok] at h
  obtain ⟨check, h3, h⟩ := h
  rw [Out.bind_eq_ok] at h
  obtain ⟨places, h4, _⟩ := h
  unfold expandSeq at h4
  split at h4
  · cases h4
  rename_i hlen
  rw [Out.bind_eq_ok] at h4
  obtain ⟨order, h5, h4⟩ := h4
  rw [Out.bind_eq_ok] at h4
  obtain ⟨⟨md, out, off⟩, h6, h4⟩ := h4
  simp only at h4
  split at h4
  · cases h4
  rename_i hH
  have hr := (seqLoop_records _ _ _ _ _ _ _ h6).1
  rw [List.nil_append] at hr
  refine ⟨files, algo, order, h1, h2, by omega, h5, by rw [← hr]; exact Classical.byContradiction hH, ?_⟩
  intro i hi
  obtain ⟨f, g1, g2⟩ := seqLoop_checked _ _ _ _ _ _ _ h6 i hi
  refine ⟨f, g1, fun a b => ?_⟩
  obtain ⟨d, g3, g4⟩ := g2 a b
  exact ⟨d, g3, hp algo check h3 _ _ _ g4⟩

theorem readInstalled_ok {db : Db} {nevr : Bytes} {p : Pkg} (h : readInstalled db nevr = .ok p) :
    ∃ n e v r, splitNevr nevr = .ok (n, e, v, r) ∧ db n e v r = some p := by
  unfold readInstalled at h
  rw [Out.bind_eq_ok] at h
  obtain ⟨⟨n, e, v, r⟩, h1, h⟩ := h
  simp only at h
  split at h
  · cases h
  · rename_i q hq
    cases h
    exact ⟨n, e, v, r, h1, hq⟩

theorem sameNevr_ok {nevr : Bytes} {p : Pkg} {u : Unit} (h : sameNevr nevr p = .ok u) : p.nevr = .ok nevr := by
  unfold sameNevr at h
  rw [Out.bind_eq_ok] at h
  obtain ⟨n, h1, h⟩ := h
  split at h
  · cases h
  · rename_i hn
    rw [h1]
    simpa using (Classical.byContradiction hn : nevr = n).symm

/-- C55. A delta whose source package is not installed is reported as just that, and so is a
    sequence ID that is checked against the installed packages. -/
theorem C55_not_installed (sys : Sys) (H : Bytes → Bytes) (db : Db) (dec : Decoder) (rpmHead : Bytes → Out (Nat × Nat))
    (n v r : Bytes) (e : Option Bytes) (hdb : db n e v r = none) :
    (∀ file d mode, mode = 1 ∨ mode = 2 → readDelta dec rpmHead file = .ok d → splitNevr d.srcNevr = .ok (n, e, v, r) →
      drpmCheck sys H db dec rpmHead file mode = .err .noinstall) ∧
    (∀ id nevr seq mode, mode = 0 ∨ mode = 1 ∨ mode = 2 → splitSeqId id = .ok (nevr, seq) → splitNevr nevr = .ok (n, e, v, r) →
      drpmCheckSequence sys H db none id mode = .err .noinstall) := by
  have key : ∀ nevr, splitNevr nevr = .ok (n, e, v, r) → readInstalled db nevr = .err .noinstall := by
    intro nevr hs
    unfold readInstalled
    rw [hs, Out.bind_ok]
    simp only
    rw [hdb]
  constructor
  · intro file d mode hm h1 h2
    unfold drpmCheck
    rw [if_neg (by omega), h1, Out.bind_ok, key _ h2, Out.bind_err]
  · intro id nevr seq mode hm h1 h2
    unfold drpmCheckSequence
    rw [if_neg (by simp only [Option.isSome_none]; simp; omega), h1, Out.bind_ok]
    simp only
    unfold seqSource
    rw [key _ h2]
    rfl

/-- C55. If `drpm_check` succeeds, the package the delta was made from is installed, and for a
    standard delta every file of the sequence that is regular and not empty has passed the check
    asked for (full: its digest; sizes: its size) and the metadata have the recorded MD5. -/
theorem C55_check (sys : Sys) (H : Bytes → Bytes) (db : Db) (dec : Decoder) (rpmHead : Bytes → Out (Nat × Nat))
    (file : Bytes) (mode : Int) (h : drpmCheck sys H db dec rpmHead file mode = .ok ()) :
    (mode = 1 ∨ mode = 2) ∧
    ∃ d p, readDelta dec rpmHead file = .ok d ∧
      (∃ n e v r, splitNevr d.srcNevr = .ok (n, e, v, r) ∧ db n e v r = some p) ∧ p.nevr = .ok d.srcNevr ∧
      (d.type = .standard → FilesChecked H p d.sequence (fun algo name digest size =>
        if mode = 1 then checkFull sys name algo digest size = .ok ()
        else checkFilesize sys name algo digest size = .ok ())) := by
  unfold drpmCheck at h
  split at h
  · cases h
  rename_i hmode
  have hm : mode = 1 ∨ mode = 2 := by omega
  refine ⟨hm, ?_⟩
  rw [Out.bind_eq_ok] at h
  obtain ⟨d, h1, h⟩ := h
  rw [Out.bind_eq_ok] at h
  obtain ⟨p, h2, h⟩ := h
  rw [Out.bind_eq_ok] at h
  obtain ⟨_, h3, h⟩ := h
  refine ⟨d, p, h1, readInstalled_ok h2, sameNevr_ok h3, fun ht => ?_⟩
  rw [if_pos ht] at h
  refine checkFiles_checked h _ ?_
  intro algo check hc n dg s hok
  unfold checkOf at hc
  rw [if_neg (by omega)] at hc
  rcases hm with hm | hm
  · rw [if_pos hm] at hc
    cases hc
    rw [if_pos hm]
    exact hok
  · rw [if_neg (by omega), if_pos hm] at hc
    cases hc
    rw [if_neg (by omega)]
    exact hok

/-- C55, the consequence for a file: with a full check, the first bytes of every installed regular
    file of the sequence have the recorded digest (files that are not prelinked, no `read` fails). -/
theorem C55_digests (sys : Sys) (hs : DigestLengths sys) (H : Bytes → Bytes) (db : Db) (dec : Decoder)
    (rpmHead : Bytes → Out (Nat × Nat)) (file : Bytes) (h : drpmCheck sys H db dec rpmHead file 1 = .ok ())
    (d : Delta) (hd : readDelta dec rpmHead file = .ok d) (ht : d.type = .standard) :
    ∃ (p : Pkg) (files : List FileInfo) (algo : Nat) (order : List Nat), p.nevr = .ok d.srcNevr ∧ p.files = .ok files ∧ p.algo = .ok algo ∧
      decodeSeq files.length (d.sequence.drop 16) = .ok order ∧
      ∀ i ∈ order, ∃ f, files[i]? = some f ∧ (isReg f = true → 0 < f.size → (algo = 0 ∨ algo = 1) →
        ∀ c, Readable sys f.name c → (c.length ≤ f.size ∨ NotPrelinked sys f.name c) →
          parseHex f.md5 = some (sys.digest algo (c.take f.size))) := by
  obtain ⟨_, d', p, e1, _, e3, e4⟩ := C55_check sys H db dec rpmHead file 1 h
  rw [hd] at e1
  cases e1
  obtain ⟨files, algo, order, f1, f2, _, f4, _, f6⟩ := (e4 ht).ok
  refine ⟨p, files, algo, order, e3, f1, f2, f4, fun i hi => ?_⟩
  obtain ⟨f, g1, g2⟩ := f6 i hi
  refine ⟨f, g1, fun a b ha c hr hnp => ?_⟩
  obtain ⟨dg, g3, g4⟩ := g2 a b
  rw [if_pos rfl] at g4
  have hdig : IsDigest algo dg ∧ parseHex f.md5 = some dg := by
    unfold fileDigest at g3
    rcases ha with rfl | rfl
    · rw [if_pos rfl] at g3
      split at g3
      · cases g3
      split at g3
      · rename_i x hx
        cases g3
        obtain ⟨a1, a2⟩ := (C14_md5 _ _).mp hx
        exact ⟨Or.inl ⟨rfl, a2⟩, a1⟩
      · cases g3
    · rw [if_neg (by decide), if_pos rfl] at g3
      split at g3
      · cases g3
      split at g3
      · rename_i x hx
        cases g3
        obtain ⟨a1, a2⟩ := (C14_sha256 _ _).mp hx
        exact ⟨Or.inr ⟨rfl, a2⟩, a1⟩
      · cases g3
  rw [C38_full sys hs f.name c hr algo dg hdig.1 f.size hnp] at g4
  split at g4
  · rename_i he
    rw [hdig.2, he]
  · cases g4

/-! ## C56 -/

/-- All regular files of the list are installed unchanged. -/
def Intact (sys : Sys) (algo : Nat) (files : List FileInfo) : Prop :=
  ∀ f ∈ files, isReg f = true → ∃ c, Readable sys f.name c ∧ c.length = f.size ∧ parseHex f.md5 = some (sys.digest algo c)

theorem intact_passes {sys : Sys} (hs : DigestLengths sys) {algo : Nat} {files : List FileInfo} (ha : algo = 0 ∨ algo = 1)
    (hi : Intact sys algo files) {mode : Int} {check : Bytes → Bytes → Nat → Out Unit}
    (hc : checkOf sys mode algo = .ok check) : Passes check algo files := by
  intro f hf d hd hreg hpos
  obtain ⟨c, hr, hlen, hdig⟩ := hi f hf hreg
  have hfs : seqFilesize f = f.size := by unfold seqFilesize; rw [hreg]; rfl
  have hd' : d = sys.digest algo c := by
    unfold fileDigest at hd
    rcases ha with rfl | rfl
    · rw [if_pos rfl] at hd
      split at hd
      · cases hd
      split at hd
      · rename_i x hx
        cases hd
        have := ((C14_md5 _ _).mp hx).1
        rw [hdig] at this
        cases this; rfl
      · cases hd
    · rw [if_neg (by decide), if_pos rfl] at hd
      split at hd
      · cases hd
      split at hd
      · rename_i x hx
        cases hd
        have := ((C14_sha256 _ _).mp hx).1
        rw [hdig] at this
        cases this; rfl
      · cases hd
  have hIs : IsDigest algo d := by
    rw [hd']
    rcases ha with rfl | rfl
    · exact Or.inl ⟨rfl, (hs c).1⟩
    · exact Or.inr ⟨rfl, (hs c).2⟩
  rw [hfs]
  unfold checkOf at hc
  split at hc
  · cases hc; rfl
  · split at hc
    · cases hc
      show checkFull sys f.name algo d f.size = .ok ()
      rw [C38_full sys hs f.name c hr algo d hIs f.size (Or.inl (by omega)), ← hlen, List.take_length, if_pos hd'.symm]
    · split at hc
      · cases hc
        show checkFilesize sys f.name algo d f.size = .ok ()
        rw [C38_size sys f.name c hr algo d f.size (Or.inl (by omega)), if_pos hlen]
      · cases hc

/-- C55, sequence. If `drpm_check_sequence` succeeds, the ID names the package that was looked at:
    the installed one, whose files then passed the check asked for; or the one in the package file,
    for which no check of files can be asked for and whose signature MD5 may stand for the files (the
    ID of an rpm-only delta). -/
theorem C55_sequence (sys : Sys) (H : Bytes → Bytes) (db : Db) (oldRpm : Option (Out Pkg)) (id : Bytes) (mode : Int)
    (h : drpmCheckSequence sys H db oldRpm id mode = .ok ()) :
    (mode = 0 ∨ mode = 1 ∨ mode = 2) ∧
    ∃ nevr seq p, splitSeqId id = .ok (nevr, seq) ∧ p.nevr = .ok nevr ∧
      (oldRpm = none → (∃ n e v r, splitNevr nevr = .ok (n, e, v, r) ∧ db n e v r = some p) ∧
        FilesChecked H p seq (fun algo name digest size =>
          if mode = 0 then True else if mode = 1 then checkFull sys name algo digest size = .ok ()
          else checkFilesize sys name algo digest size = .ok ())) ∧
      (∀ q, oldRpm = some q → mode = 0 ∧ q = .ok p ∧
        ((seq.length = 16 ∧ p.sigMd5 = .ok (some seq)) ∨ FilesChecked H p seq (fun _ _ _ _ => True))) := by
  unfold drpmCheckSequence at h
  split at h
  · cases h
  rename_i hargs
  have hm : mode = 0 ∨ mode = 1 ∨ mode = 2 := by
    by_cases h0 : mode = 0
    · exact Or.inl h0
    · by_cases h1 : mode = 1
      · exact Or.inr (Or.inl h1)
      · by_cases h2 : mode = 2
        · exact Or.inr (Or.inr h2)
        · exact absurd (Or.inl ⟨h0, h2, h1⟩) hargs
  have hrpm : ∀ q, oldRpm = some q → mode = 0 := by
    intro q hq
    by_cases h0 : mode = 0
    · exact h0
    · exact absurd (Or.inr ⟨by rw [hq]; rfl, h0⟩) hargs
  clear hargs
  refine ⟨hm, ?_⟩
  rw [Out.bind_eq_ok] at h
  obtain ⟨⟨nevr, seq⟩, h1, h⟩ := h
  simp only at h
  rw [Out.bind_eq_ok] at h
  obtain ⟨⟨p, only⟩, h2, h⟩ := h
  simp only at h
  rw [Out.bind_eq_ok] at h
  obtain ⟨_, h3, h⟩ := h
  refine ⟨nevr, seq, p, h1, sameNevr_ok h3, ?_, ?_⟩
  · intro hn
    subst hn
    unfold seqSource at h2
    rw [Out.bind_eq_ok] at h2
    obtain ⟨p', g1, g2⟩ := h2
    simp only [Out.ok.injEq, Prod.mk.injEq] at g2
    obtain ⟨rfl, rfl⟩ := g2
    refine ⟨readInstalled_ok g1, checkFiles_checked h _ ?_⟩
    intro algo check hc n d s hok
    unfold checkOf at hc
    rcases hm with rfl | rfl | rfl
    · exact trivial
    · cases hc
      exact hok
    · cases hc
      exact hok
  · intro q hq
    have h0 := hrpm q hq
    subst hq
    unfold seqSource at h2
    rw [Out.bind_eq_ok] at h2
    obtain ⟨p', g1, g2⟩ := h2
    rw [Out.bind_eq_ok] at g2
    obtain ⟨m, g2, g3⟩ := g2
    simp only [Out.ok.injEq, Prod.mk.injEq] at g3
    obtain ⟨rfl, rfl⟩ := g3
    refine ⟨h0, g1, ?_⟩
    split at h
    · rename_i hb
      simp only [Bool.and_eq_true, decide_eq_true_eq, beq_iff_eq] at hb
      left
      rw [g2, hb.2, List.take_of_length_le (by omega)]
      exact ⟨hb.1, rfl⟩
    · exact Or.inr (checkFiles_checked h _ (fun _ _ _ _ _ _ _ => trivial))

/-- C56, sequence. The sequence ID that `drpm_make` writes for an old package is accepted by
    `drpm_check_sequence`, with any kind of check, on every system where that package is installed
    and its files are unchanged. -/
theorem C56_sequence (sys : Sys) (hs : DigestLengths sys) (H : Bytes → Bytes) (hH : ∀ b, (H b).length = 16)
    (m : MakeIn) (r : Made) (hl : m.archive.length < 2^63) (hn : m.files.length < 2^32) (hf : FilesFit m)
    (h : makeCpio H m = .ok r) (hu : ∀ es, Entries m.archive 0 es → (es.map AEnt.name).Nodup)
    (hr : r.sequence.length < 2^31) (ha : m.algo = 0 ∨ m.algo = 1)
    (nevr n v rel : Bytes) (e : Option Bytes) (hsp : splitNevr nevr = .ok (n, e, v, rel)) (hne : nevr ≠ [])
    (db : Db) (p : Pkg) (hdb : db n e v rel = some p) (hp1 : p.nevr = .ok nevr)
    (files : List FileInfo) (hp2 : p.files = .ok files) (hfs : SameButColors files m.files)
    (hp3 : p.algo = .ok m.algo) (mode : Int) (hmode : mode = 0 ∨ mode = 1 ∨ mode = 2)
    (hint : mode ≠ 0 → Intact sys m.algo m.files) :
    ∃ line, seqLine nevr r.sequence = .ok (line ++ [10]) ∧
      drpmCheckSequence sys H db none line mode = .ok () ∧
      drpmCheckSequence sys H db none (line ++ [10]) mode = .ok () := by
  have hseq : 16 ≤ r.sequence.length := by
    obtain ⟨es, md, s, _, _, _, _, e5, _⟩ := makeCpio_spec hl hf h
    rw [e5, List.length_append, hH]
    omega
  obtain ⟨line, l1, l2, l3⟩ := C19_roundtrip nevr r.sequence hne ⟨hseq, hr⟩
  refine ⟨line, l1, ?_⟩
  have hck : ∃ check, checkOf sys mode m.algo = .ok check := by
    unfold checkOf
    rcases hmode with rfl | rfl | rfl
    · exact ⟨_, rfl⟩
    · exact ⟨_, rfl⟩
    · exact ⟨_, rfl⟩
  obtain ⟨check, hck⟩ := hck
  have hpass : Passes check m.algo m.files := by
    by_cases h0 : mode = 0
    · subst h0
      cases hck
      exact fun _ _ _ _ _ _ => rfl
    · exact intact_passes hs ha (hint h0) hck
  obtain ⟨places, hx⟩ := C18_verifies H hH m r hl hn hf h hu check hpass
  have key : ∀ id, splitSeqId id = .ok (nevr, r.sequence) → drpmCheckSequence sys H db none id mode = .ok () := by
    intro id hid
    unfold drpmCheckSequence
    rw [if_neg (by simp; omega), hid, Out.bind_ok]
    unfold seqSource readInstalled
    simp only [hsp, Out.bind_ok, hdb]
    unfold sameNevr
    rw [hp1, Out.bind_ok, if_neg (by simp), Out.bind_ok, if_neg (by decide)]
    unfold checkFiles
    rw [hp2, Out.bind_ok, hp3, Out.bind_ok, hck, Out.bind_ok, expandSeq_colors H hfs, hx, Out.bind_ok]
  exact ⟨key _ l3, key _ l2⟩

/-- C56, package file. With a package file instead of the installed package, the sequence ID of a
    standard delta made from it is accepted, and so is that of an rpm-only delta (the MD5 in the
    signature). -/
theorem C56_rpm (sys : Sys) (H : Bytes → Bytes) (hH : ∀ b, (H b).length = 16) (db : Db)
    (p : Pkg) (nevr : Bytes) (hne : nevr ≠ []) (hp1 : p.nevr = .ok nevr) :
    (∀ (m : MakeIn) (r : Made) (sig : Option Bytes), m.archive.length < 2^63 → m.files.length < 2^32 → FilesFit m →
      makeCpio H m = .ok r → (∀ es, Entries m.archive 0 es → (es.map AEnt.name).Nodup) → r.sequence.length < 2^31 →
      (∃ files, p.files = .ok files ∧ SameButColors files m.files) → p.algo = .ok m.algo → p.sigMd5 = .ok sig →
      ∃ line, seqLine nevr r.sequence = .ok (line ++ [10]) ∧ drpmCheckSequence sys H db (some (.ok p)) line 0 = .ok ()) ∧
    (∀ md5 : Bytes, md5.length = 16 → p.sigMd5 = .ok (some md5) →
      ∃ line, seqLine nevr md5 = .ok (line ++ [10]) ∧ drpmCheckSequence sys H db (some (.ok p)) line 0 = .ok ()) := by
  constructor
  · rintro m r sig hl hn hf h hu hr ⟨files, hp2, hfs⟩ hp3 hp4
    have hseq : 16 ≤ r.sequence.length := by
      obtain ⟨es, md, s, _, _, _, _, e5, _⟩ := makeCpio_spec hl hf h
      rw [e5, List.length_append, hH]
      omega
    obtain ⟨line, l1, l2, l3⟩ := C19_roundtrip nevr r.sequence hne ⟨hseq, hr⟩
    refine ⟨line, l1, ?_⟩
    obtain ⟨places, hx⟩ := C18_verifies H hH m r hl hn hf h hu noCheck (fun _ _ _ _ _ _ => rfl)
    unfold drpmCheckSequence
    rw [if_neg (by simp), l3, Out.bind_ok]
    unfold seqSource
    simp only [Out.bind_ok, hp4]
    unfold sameNevr
    rw [hp1, Out.bind_ok, if_neg (by simp), Out.bind_ok]
    split
    · rfl
    · unfold checkFiles
      rw [hp2, Out.bind_ok, hp3, Out.bind_ok]
      show (checkOf sys 0 m.algo >>= _) = _
      unfold checkOf
      rw [if_pos rfl, Out.bind_ok, expandSeq_colors H hfs, hx, Out.bind_ok]
  · intro md5 h16 hp4
    obtain ⟨line, l1, l2, l3⟩ := C19_roundtrip nevr md5 hne ⟨by omega, by omega⟩
    refine ⟨line, l1, ?_⟩
    unfold drpmCheckSequence
    rw [if_neg (by simp), l3, Out.bind_ok]
    unfold seqSource
    simp only [Out.bind_ok, hp4]
    unfold sameNevr
    rw [hp1, Out.bind_ok, if_neg (by simp), Out.bind_ok, if_pos (by simp [h16, List.take_of_length_le])]

/-- C56, delta. A standard delta that carries the sequence made from an old package passes
    `drpm_check` on every system where that package is installed and its files are unchanged. -/
theorem C56_delta (sys : Sys) (hs : DigestLengths sys) (H : Bytes → Bytes) (hH : ∀ b, (H b).length = 16)
    (m : MakeIn) (r : Made) (hl : m.archive.length < 2^63) (hn : m.files.length < 2^32) (hf : FilesFit m)
    (h : makeCpio H m = .ok r) (hu : ∀ es, Entries m.archive 0 es → (es.map AEnt.name).Nodup)
    (ha : m.algo = 0 ∨ m.algo = 1)
    (dec : Decoder) (rpmHead : Bytes → Out (Nat × Nat)) (file : Bytes) (d : Delta)
    (hd : readDelta dec rpmHead file = .ok d) (ht : d.type = .standard) (hds : d.sequence = r.sequence)
    (n v rel : Bytes) (e : Option Bytes) (hsp : splitNevr d.srcNevr = .ok (n, e, v, rel))
    (db : Db) (p : Pkg) (hdb : db n e v rel = some p) (hp1 : p.nevr = .ok d.srcNevr)
    (files : List FileInfo) (hp2 : p.files = .ok files) (hfs : SameButColors files m.files)
    (hp3 : p.algo = .ok m.algo) (mode : Int) (hmode : mode = 1 ∨ mode = 2)
    (hint : Intact sys m.algo m.files) : drpmCheck sys H db dec rpmHead file mode = .ok () := by
  have hck : ∃ check, checkOf sys mode m.algo = .ok check := by
    unfold checkOf
    rcases hmode with rfl | rfl
    · exact ⟨_, rfl⟩
    · exact ⟨_, rfl⟩
  obtain ⟨check, hck⟩ := hck
  obtain ⟨places, hx⟩ := C18_verifies H hH m r hl hn hf h hu check (intact_passes hs ha hint hck)
  unfold drpmCheck
  rw [if_neg (by omega), hd, Out.bind_ok]
  unfold readInstalled
  simp only [hsp, Out.bind_ok, hdb]
  unfold sameNevr
  rw [hp1, Out.bind_ok, if_neg (by simp), Out.bind_ok, if_pos ht]
  unfold checkFiles
  rw [hp2, Out.bind_ok, hp3, Out.bind_ok, hck, Out.bind_ok, hds, expandSeq_colors H hfs, hx, Out.bind_ok]

/-- A system on which the demonstration package is installed. -/
def demoInstalled : Sys :=
  { content := fun n => if n = [47, 97] then some (zeros 5) else if n = [47, 99] then some (zeros 2)
      else if n = [47, 100] then some (zeros 3) else none
    readable := fun _ => true
    reads := fun _ k => some (k + 1)
    undo := fun _ => .err .other
    digest := fun algo _ => List.replicate (if algo = 0 then 16 else 32) 0xAA }

def demoPkg : Pkg := ⟨.ok [97, 45, 49, 45, 50], .ok demoIn.files, .ok 0, .ok none⟩

def demoDb : Db := fun n e v r => if n = [97] ∧ e = none ∧ v = [49] ∧ r = [50] then some demoPkg else none

theorem demo_intact : Intact demoInstalled demoIn.algo demoIn.files := by
  intro f hf hr
  have h4 : f = demoFile [47, 97] 0o100644 5 [] ∨ f = demoFile [47, 98] 0o120777 1 [97] ∨
      f = demoFile [47, 99] 0o100644 2 [] ∨ f = demoFile [47, 100] 0o100755 3 [] := by
    simpa [demoIn] using hf
  rcases h4 with rfl | rfl | rfl | rfl
  · exact ⟨zeros 5, ⟨by decide +kernel, rfl, fun k h => by cases h⟩, by decide +kernel, by decide +kernel⟩
  · exact absurd hr (by decide +kernel)
  · exact ⟨zeros 2, ⟨by decide +kernel, rfl, fun k h => by cases h⟩, by decide +kernel, by decide +kernel⟩
  · exact ⟨zeros 3, ⟨by decide +kernel, rfl, fun k h => by cases h⟩, by decide +kernel, by decide +kernel⟩

/-- The demonstration package passes the full check of its sequence; without the package, or for
    other contents, the check fails. -/
example : DigestLengths demoInstalled ∧ splitNevr [97, 45, 49, 45, 50] = .ok ([97], none, [49], [50]) ∧
    Out.okAnd (makeCpio demoH demoIn) (fun r => Out.okAnd (seqLine [97, 45, 49, 45, 50] r.sequence) (fun line =>
      drpmCheckSequence demoInstalled demoH demoDb none line 1 = .ok () ∧
      drpmCheckSequence demoInstalled demoH demoDb none line 2 = .ok () ∧
      drpmCheckSequence demoInstalled demoH (fun _ _ _ _ => none) none line 0 = .err .noinstall ∧
      drpmCheckSequence (demoSys [1, 2, 3, 4, 5]) demoH demoDb none line 1 = .err .mismatch)) = true := by
  refine ⟨fun data => ?_, by decide +kernel, by decide +kernel⟩
  simp [demoInstalled]


/-- A package file whose signature has an MD5: its rpm-only sequence is accepted, a longer one that
    begins with it is not, and checks of files cannot be asked for. -/
example :
    let p : Pkg := { demoPkg with sigMd5 := .ok (some (List.replicate 16 0xAB)) }
    let id := fun s : Bytes => [97, 45, 49, 45, 50, 45] ++ dumpHex s
    drpmCheckSequence demoInstalled demoH demoDb (some (.ok p)) (id (List.replicate 16 0xAB)) 0 = .ok () ∧
    drpmCheckSequence demoInstalled demoH demoDb (some (.ok p)) (id (List.replicate 17 0xAB)) 0 = .err .format ∧
    drpmCheckSequence demoInstalled demoH demoDb (some (.ok p)) (id (List.replicate 16 0xAB)) 1 = .err .args := by
  decide +kernel

end Drpm
