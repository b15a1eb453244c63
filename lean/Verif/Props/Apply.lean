import Verif.MakeLemmas
import Verif.SizeLemmas
import Verif.Props.Files
import Verif.ColorLemmas
/-!
# Making and applying: C26, C44, C45, C48, C49
-/

namespace Drpm

/-! ## C45 -/

theorem fmtOffsetLoop_spec (header : Bytes) (hl : header.length + 16 < 2^32) :
    ∀ (n k : Nat), 16 + 16 * k ≤ header.length →
      (∀ v, fmtOffsetLoop header n (16 + 16 * k) = .ok v ↔
        ∃ i, k ≤ i ∧ i < k + n ∧ 16 + 16 * i + 16 ≤ header.length ∧ word header (16 + 16 * i) = 1124 ∧
          (∀ j, k ≤ j → j < i → word header (16 + 16 * j) ≠ 1124) ∧ v = word header (16 + 16 * i + 8)) ∧
      ((∃ v, fmtOffsetLoop header n (16 + 16 * k) = .ok v) ∨ fmtOffsetLoop header n (16 + 16 * k) = .err .format) := by
  intro n
  induction n with
  | zero =>
    intro k hk
    refine ⟨fun v => ⟨fun h => (by cases h), fun ⟨i, h1, h2, _⟩ => (by omega)⟩, Or.inr rfl⟩
  | succ n ih =>
    intro k hk
    rw [fmtOffsetLoop]
    rw [Nat.mod_eq_of_lt (by omega)]
    by_cases hin : 16 + 16 * k + 16 ≤ header.length
    · rw [if_pos hin, (be32At_drop header (16 + 16 * k) (by omega)).1, Out.bind_ok]
      by_cases ht : word header (16 + 16 * k) = 1124
      · rw [if_pos ht, (be32At_drop header (16 + 16 * k + 8) (by omega)).1]
        refine ⟨fun v => ⟨fun h => ?_, fun ⟨i, h1, h2, h3, h4, h5, h6⟩ => ?_⟩, Or.inl ⟨_, rfl⟩⟩
        · cases h
          exact ⟨k, by omega, by omega, hin, ht, fun j h1 h2 => by omega, rfl⟩
        · rcases Nat.lt_or_ge k i with hki | hki
          · exact absurd ht (h5 k (by omega) hki)
          · obtain rfl : i = k := by omega
            rw [h6]
      · rw [if_neg ht, show 16 + 16 * k + 16 = 16 + 16 * (k + 1) by omega]
        obtain ⟨i1, i2⟩ := ih (k + 1) (by omega)
        refine ⟨fun v => ?_, i2⟩
        rw [i1 v]
        constructor
        · rintro ⟨i, h1, h2, h3, h4, h5, h6⟩
          refine ⟨i, by omega, by omega, h3, h4, fun j j1 j2 => ?_, h6⟩
          rcases Nat.lt_or_ge k j with hkj | hkj
          · exact h5 j (by omega) j2
          · obtain rfl : j = k := by omega
            exact ht
        · rintro ⟨i, h1, h2, h3, h4, h5, h6⟩
          have hik : i ≠ k := fun hc => ht (hc ▸ h4)
          exact ⟨i, by omega, by omega, h3, h4, fun j j1 j2 => h5 j (by omega) j2, h6⟩
    · rw [if_neg hin]
      exact ⟨fun v => ⟨fun h => (by cases h), fun ⟨i, h1, h2, h3, _⟩ => (by omega)⟩, Or.inr rfl⟩

/-- C45. For every exported header (it has at least its magic and two counts, and the entries of its
    index follow from byte 16 on, 16 bytes each): the lookup yields the offset field of the first
    entry with tag 1124 (payload format) among the entries that are counted and inside the header;
    if there is none it is a format error. Nothing outside the header is read. (Headers are limited
    by rpmlib to a quarter of the size assumed here.) -/
theorem C45_first_tag (header : Bytes) (h16 : 16 ≤ header.length) (hl : header.length + 16 < 2^32) :
    (∀ v, fmtOffset header = .ok v ↔
      ∃ i, i < word header 8 ∧ 16 + 16 * i + 16 ≤ header.length ∧ word header (16 + 16 * i) = 1124 ∧
        (∀ j, j < i → word header (16 + 16 * j) ≠ 1124) ∧ v = word header (16 + 16 * i + 8)) ∧
    ((∃ v, fmtOffset header = .ok v) ∨ fmtOffset header = .err .format) := by
  unfold fmtOffset
  rw [(be32At_drop header 8 (by omega)).1, Out.bind_ok]
  obtain ⟨i1, i2⟩ := fmtOffsetLoop_spec header hl (word header 8) 0 (by omega)
  refine ⟨fun v => ?_, i2⟩
  rw [i1 v]
  constructor
  · rintro ⟨i, h1, h2, h3, h4, h5, h6⟩
    exact ⟨i, by omega, h3, h4, fun j hj => h5 j (by omega) hj, h6⟩
  · rintro ⟨i, h1, h2, h3, h4, h5⟩
    exact ⟨i, by omega, by omega, h2, h3, fun j _ hj => h4 j hj, h5⟩

/-- A header with two index entries, the second one being the payload format at offset 5. -/
def demoHeader : Bytes :=
  [0x8E, 0xAD, 0xE8, 1, 0, 0, 0, 0] ++ createBe32 2 ++ createBe32 10 ++
  (createBe32 1000 ++ createBe32 6 ++ createBe32 0 ++ createBe32 1) ++
  (createBe32 1124 ++ createBe32 6 ++ createBe32 5 ++ createBe32 1) ++ [97, 98, 99, 100, 0, 99, 112, 105, 111, 0]

example : 16 ≤ demoHeader.length ∧ demoHeader.length + 16 < 2^32 ∧ fmtOffset demoHeader = .ok 5 ∧
    word demoHeader 8 = 2 ∧ word demoHeader 32 = 1124 := by decide +kernel

/-! ## C26 -/

/-- The MD5 that rpmlib finds in the signature that is inside a lead and signature: the signature's
    header blob begins at byte 104 with the number of index entries and the size of the data. -/
def SigMd5 {σ : Type} (env : ApplyEnv σ) (leadsig : Bytes) (m : Option Bytes) : Prop :=
  env.importSig (slice leadsig 104 (8 + 16 * word leadsig 104 + word leadsig 108)) = some (.ok m)

theorem replaceSig_ok {σ : Type} {env : ApplyEnv σ} {ls : Bytes} {sig : Out (Option Bytes)}
    (h : replaceSig env ls = .ok sig) :
    112 + 16 * word ls 104 + word ls 108 ≤ ls.length ∧
    env.importSig (slice ls 104 (8 + 16 * word ls 104 + word ls 108)) = some sig := by
  unfold replaceSig at h
  split at h
  · cases h
  · rename_i hlen
    rw [rdBlk_ok (by omega), Out.bind_ok] at h
    split at h
    · cases h
    · rw [(be32At_drop ls 104 (by omega)).1, Out.bind_ok, (be32At_drop ls 108 (by omega)).1, Out.bind_ok] at h
      split at h
      · cases h
      · unfold rdBlk at h
        split at h
        · rename_i hin
          rw [Out.bind_ok] at h
          change (match env.importSig (slice ls 104 (8 + 16 * word ls 104 + word ls 108)) with
            | none => Out.err Err.format
            | some m => Out.ok m) = Out.ok sig at h
          rcases hi : env.importSig (slice ls 104 (8 + 16 * word ls 104 + word ls 108)) with _ | m
          · rw [hi] at h; cases h
          · rw [hi] at h
            cases h
            exact ⟨by omega, rfl⟩
        · rw [Out.bind_ub] at h; cases h

/-- What an apply that succeeds has written. -/
theorem applyWrite_ok {σ : Type} {env : ApplyEnv σ} {file : Bytes} {d : Delta} {ws : Out (List Bytes)}
    {out hashed : Bytes} (h : applyWrite env file d ws = .ok (out, hashed)) :
    ∃ rest, out = d.tgtLeadsig ++ rest ∧ hashed = (if noFullMd5 d then [] else d.tgtLeadsig) ++ rest := by
  unfold applyWrite at h
  rw [Out.bind_eq_ok] at h
  obtain ⟨hdr, h1, h⟩ := h
  rw [Out.bind_eq_ok] at h
  obtain ⟨_, _, h⟩ := h
  rw [Out.bind_eq_ok] at h
  obtain ⟨w, h2, h⟩ := h
  rw [Out.bind_eq_ok] at h
  obtain ⟨⟨data, o⟩, h3, h⟩ := h
  cases h
  have : out = d.tgtLeadsig ++ hdr ++ data := by
    unfold compressNew at h3
    split at h3
    · exact (C27_prefix_verbatim _ _ _ _ _ _ h3).2.1
    · exact (C27_prefix_verbatim _ _ _ _ _ _ h3).2.1
  exact ⟨hdr ++ data, by rw [this, List.append_assoc], by rw [List.append_assoc]⟩

theorem planBody_ok {σ : Type} {env : ApplyEnv σ} {file : Bytes} {d : Delta} {old : OldData} {files : List FileInfo}
    {places : List CpioFile} {cleanup : Nat} {out hashed : Bytes}
    (h : planBody env file d old files places cleanup = .ok (.ok (out, hashed))) :
    ∃ ls rest, out = ls ++ rest ∧ (ls = d.tgtLeadsig ∨ env.exportSig d.tgtLeadsig = .ok ls) ∧
      hashed = (if noFullMd5 d then [] else ls) ++ rest := by
  unfold planBody at h
  split at h
  · rename_i r _
    simp only [Out.ok.injEq] at h
    unfold writeOld at h
    rw [Out.bind_eq_ok] at h
    obtain ⟨ls, h1, h⟩ := h
    cases h
    exact ⟨ls, r.header ++ r.archive, by rw [List.append_assoc], Or.inr h1, by rw [List.append_assoc]⟩
  · unfold planDiff at h
    rw [Out.bind_eq_ok] at h
    obtain ⟨_, _, h⟩ := h
    rw [Out.bind_eq_ok] at h
    obtain ⟨_, _, h⟩ := h
    rw [Out.bind_eq_ok] at h
    obtain ⟨_, _, h⟩ := h
    simp only [Out.ok.injEq] at h
    obtain ⟨rest, h1, h2⟩ := applyWrite_ok h
    exact ⟨_, rest, h1, Or.inl rfl, h2⟩

/-- C26. For every delta, every old package (file or installed) and every compressor: if applying
    reports success, the delta could be read, there is a complete output file, and
    - if the delta records an MD5 of the target (it is not all zero), it is the MD5 of the whole
      output file;
    - otherwise, if there is an MD5 in the target's signature, it is the MD5 of everything after
      lead and signature of the output file. -/
theorem C26_verified {σ : Type} (env : ApplyEnv σ) (a : ApplyArgs) (cleanup : Nat) (left : Left)
    (h : drpmApply env a cleanup = (.ok (), left)) :
    ∃ file d ls rest, a.delta = some (.ok file) ∧ readDelta env.dec env.rpmHead file = .ok d ∧
      left = .written (ls ++ rest) ∧ (ls = d.tgtLeadsig ∨ env.exportSig d.tgtLeadsig = .ok ls) ∧
      (d.tgtMd5 ≠ zeros 16 → env.H (ls ++ rest) = d.tgtMd5) ∧
      (d.tgtMd5 = zeros 16 → ∀ m, SigMd5 env d.tgtLeadsig (some m) → env.H rest = m) := by
  unfold drpmApply at h
  rcases hd : a.delta with _ | delta
  · rw [hd] at h; simp at h
  · cases hn : a.named with
    | false => rw [hd, hn] at h; simp at h
    | true =>
      rw [hd, hn] at h
      simp only at h
      split at h
      · simp at h
      · unfold applyTo at h
        rcases hp : (delta >>= fun file => planApply env file a.src cleanup) with pl | e | _ | _
        · rw [hp] at h
          simp only at h
          rw [Out.bind_eq_ok] at hp
          obtain ⟨file, rfl, hp⟩ := hp
          unfold planApply at hp
          rw [Out.bind_eq_ok] at hp
          obtain ⟨d, p1, hp⟩ := hp
          rw [Out.bind_eq_ok] at hp
          obtain ⟨⟨p, old⟩, p2, hp⟩ := hp
          rw [Out.bind_eq_ok] at hp
          obtain ⟨_, p3, hp⟩ := hp
          rw [Out.bind_eq_ok] at hp
          obtain ⟨⟨files, places⟩, p4, hp⟩ := hp
          rw [Out.bind_eq_ok] at hp
          obtain ⟨sig, p5, hp⟩ := hp
          rw [Out.bind_eq_ok] at hp
          obtain ⟨body, p6, hp⟩ := hp
          cases hp
          rcases hb : body with ⟨out, hashed⟩ | e | _ | _
          · simp only [hb, finishApply, Prod.mk.injEq] at h
            obtain ⟨h1, rfl⟩ := h
            rw [hb] at p6
            obtain ⟨ls, rest, q1, q2, q3⟩ := planBody_ok p6
            refine ⟨file, d, ls, rest, rfl, p1, by rw [q1], q2, fun hz => ?_, fun hz m hm => ?_⟩
            · unfold finalCheck at h1
              have : noFullMd5 d = false := by simp [noFullMd5, hz]
              rw [this] at h1 q3
              simp only [Bool.false_eq_true, if_false] at h1 q3
              split at h1
              · cases h1
              · rename_i hh
                rw [← q3]
                exact Decidable.of_not_not hh
            · unfold finalCheck at h1
              have : noFullMd5 d = true := by simp [noFullMd5, hz]
              rw [this] at h1 q3
              simp only [if_true, List.nil_append] at h1 q3
              obtain ⟨_, hs⟩ := replaceSig_ok p5
              unfold SigMd5 at hm
              rw [hs] at hm
              cases hm
              rw [Out.bind_ok] at h1
              simp only at h1
              split at h1
              · cases h1
              · rename_i hh
                rw [← q3]
                exact Decidable.of_not_not hh
          · simp [hb, finishApply] at h
          · simp [hb, finishApply] at h
          · simp [hb, finishApply] at h
        · rw [hp] at h; simp at h
        · rw [hp] at h; simp at h
        · rw [hp] at h; simp at h

/-! ## C49 -/

/-- C49 is violated: whenever both names are given and the output can be created, a file that was at
    the output path is gone, whatever the outcome; if the inputs are rejected (unreadable delta,
    wrong package, ...) an empty file is left. -/
theorem C49_violated {σ : Type} (env : ApplyEnv σ) (delta : Out Bytes) (src : OldSrc) (cleanup : Nat) :
    (drpmApply env ⟨some delta, true, true, src⟩ cleanup).2 ≠ .untouched ∧
    (∀ e, (delta >>= fun file => planApply env file src cleanup) = .err e →
      drpmApply env ⟨some delta, true, true, src⟩ cleanup = (.err e, .written [])) := by
  constructor
  · show (applyTo env delta src cleanup).2 ≠ _
    unfold applyTo
    split
    · rename_i pl _
      rcases pl.body with ⟨o, h⟩ | e | _ | _ <;> simp [finishApply]
    · simp
    · simp
    · simp
  · intro e he
    show applyTo env delta src cleanup = _
    unfold applyTo
    rw [he]

/-- For example every delta that cannot be opened. -/
example {σ : Type} (env : ApplyEnv σ) (src : OldSrc) :
    drpmApply env ⟨some (.err .io), true, true, src⟩ 0 = (.err .io, .written []) :=
  (C49_violated env _ src 0).2 .io rfl

/-- C49 (proved part): a call that fails because a name is missing, or because the output cannot be
    created, leaves the output path alone; and these are the only calls that do. -/
theorem C49_partial {σ : Type} (env : ApplyEnv σ) (a : ApplyArgs) (cleanup : Nat) :
    (a.delta = none ∨ a.named = false → drpmApply env a cleanup = (.err .args, .untouched)) ∧
    (a.delta ≠ none ∧ a.named = true ∧ a.creatable = false → drpmApply env a cleanup = (.err .io, .untouched)) ∧
    ((drpmApply env a cleanup).2 = .untouched → a.delta = none ∨ a.named = false ∨ a.creatable = false) := by
  obtain ⟨delta, named, creatable, src⟩ := a
  cases delta with
  | none => exact ⟨fun _ => rfl, fun h => absurd rfl h.1, fun _ => Or.inl rfl⟩
  | some delta =>
    cases named with
    | false => exact ⟨fun _ => rfl, fun h => by simp at h, fun _ => Or.inr (Or.inl rfl)⟩
    | true =>
      cases creatable with
      | false => exact ⟨fun h => by simp at h, fun _ => rfl, fun _ => Or.inr (Or.inr rfl)⟩
      | true =>
        exact ⟨fun h => by simp at h, fun h => by simp at h, fun h => absurd h (C49_violated env delta src cleanup).1⟩

/-! ## C48

The conditions under which the round trip is claimed; each is about one thing the caller provides. -/

/-- Lead and signature of a package: long enough, with the magic of a header at the signature,
    importable by rpmlib, and if there is an MD5 in the signature it is the right one. -/
structure GoodSignature {σ : Type} (env : ApplyEnv σ) (r : Rpm) : Prop where
  length : 112 ≤ r.leadsig.length ∧ r.leadsig.length < 2^32
  magic : slice r.leadsig 96 4 = [0x8E, 0xAD, 0xE8, 0x01]
  inside : 112 + 16 * word r.leadsig 104 + word r.leadsig 108 ≤ r.leadsig.length
  counts : env.blobOk (word r.leadsig 104) (word r.leadsig 108) = true
  md5 : ∃ m, SigMd5 env r.leadsig m ∧ (m = none ∨ m = some (env.H (r.header ++ r.payload)))

/-- A package name and version as rpmlib gives it: a string, not absurdly long. -/
def GoodNevr (nevr : Out Bytes) : Prop :=
  ∃ n, nevr = .ok n ∧ n.length + 1 < 2^31 - 2^12 ∧ ∀ c ∈ n, c ≠ 0

/-- A level the library of a method has: up to 9; zstd, lzlib and no compression make do with any
    level the code lets through. -/
def UsableLevel (comp level : Nat) : Prop :=
  level ≤ 9 ∨ (level ≤ 99 ∧ (comp = Comp.none.code ∨ comp = Comp.lzip.code ∨ comp = Comp.zstd.code))

/-- The compression library for the delta: a level it has, and decompressing undoes compressing. -/
structure GoodCodec {σ : Type} (menv : MakeEnv) (env : ApplyEnv σ) (c : Comp) (level : Nat) : Prop where
  range : UsableLevel c.code level
  lossless : c ≠ .none → ∀ s, ∃ z, menv.compress c.code level s = .ok z ∧ 8 ≤ z.length ∧
    magicBytes c <+: z ∧ env.dec c z = s

/-- The add block is left out, or it is compressed, by a library that undoes it; `n` bounds the size
    of what is compressed, and the result has to fit into the delta. -/
def GoodAdd {σ : Type} (menv : MakeEnv) (env : ApplyEnv σ) (o : Opts Bytes) (n : Nat) : Prop :=
  o.addblk = true → ∃ c : Comp, c ≠ .none ∧ o.addblkComp = c.code ∧ UsableLevel c.code o.addblkLevel ∧
    ∀ ws : List Bytes, ws.flatten.length ≤ n → ∃ z, menv.addComp c.code o.addblkLevel ws = .ok z ∧
      8 ≤ z.length ∧ z.length < 2^31 - 2^12 ∧ magicBytes c <+: z ∧ env.dec c z = ws.flatten

/-- Fewer copies than the delta format can count. -/
def FewCopies (old new : Bytes) (addblk : Bool) : Prop :=
  ∀ df, makeDiff old new addblk = .ok df → df.ext.length < 2^29 ∧ df.int.length < 2^29

/-- What both kinds of delta need. -/
structure GoodPair {σ : Type} (menv : MakeEnv) (env : ApplyEnv σ) (o : Opts Bytes) (old new : Rpm) : Prop where
  md5 : env.H = menv.H ∧ ∀ b, (menv.H b).length = 16
  version : 1 ≤ o.version ∧ o.version ≤ 3
  nevr : GoodNevr old.nevr
  cpio : new.isCpio = .ok true
  level : ∃ l, new.level = .ok l ∧ UsableLevel new.comp l
  comp : new.comp ∈ [0, 1, 2, 3, 4, 6]
  signature : GoodSignature env new
  codec : ∀ l, new.level = .ok l → ∃ c, (deltaComp o new l).1 = c.code ∧
    GoodCodec menv env c (deltaComp o new l).2

theorem strmOpen_of {c : Nat} {l : Nat} (hc : c ≤ 6) (hl : UsableLevel c l) : strmOpen c l = .ok () := by
  have hi : csInitOk c l = true := by
    unfold csInitOk
    unfold UsableLevel at hl
    rw [decide_eq_true_iff]
    exact ⟨by omega, hc⟩
  unfold strmOpen compOpen
  rw [if_neg (by rw [hi]; decide)]
  rcases hl with hl | ⟨h1, h2⟩
  · rw [if_pos (by omega)]
  · have : compOpen c l = .usable := by
      unfold compOpen
      rw [if_neg (by rw [hi]; decide)]
      split
      · rfl
      · have e : ¬ (c = Comp.gzip.code ∨ c = Comp.bzip2.code ∨ c = Comp.lzma.code) ∧ ¬ c = Comp.xz.code := by
          simp only [Comp.code] at h2 ⊢
          omega
        rw [if_neg e.1, if_neg e.2]
    unfold compOpen at this
    rw [if_neg (by rw [hi]; decide)] at this
    rw [this]

theorem UsableLevel.le {c l : Nat} (h : UsableLevel c l) : l ≤ 99 := by
  rcases h with h | h <;> omega

theorem code_le (c : Comp) : c.code ≤ 6 := by cases c <;> decide

theorem GoodCodec.toLossless {σ : Type} {menv : MakeEnv} {env : ApplyEnv σ} {c : Comp} {level : Nat}
    (h : GoodCodec menv env c level) : Lossless c (compressDelta menv c.code level) env.dec := by
  have hi : strmOpen c.code level = .ok () := strmOpen_of (code_le c) h.range
  constructor
  · rintro rfl s
    unfold compressDelta
    rw [hi, Out.bind_ok]
    rfl
  · intro hc s
    obtain ⟨z, h1, h2, h3, h4⟩ := h.lossless hc s
    refine ⟨z, ?_, h2, h3, h4⟩
    unfold compressDelta
    rw [hi, Out.bind_ok, if_neg (by revert hc; cases c <;> simp [Comp.code])]
    exact h1

theorem GoodAdd.stored {σ : Type} {menv : MakeEnv} {env : ApplyEnv σ} {o : Opts Bytes} {n : Nat}
    (h : GoodAdd menv env o n) (ws : List Bytes) (hw : ws.flatten.length ≤ n) :
    ∃ z, addBlock menv o ws = .ok z ∧ z.length < 2^31 - 2^12 ∧
      openAdd env.dec z = .ok (if o.addblk then some ws.flatten else none) := by
  unfold addBlock
  cases ha : o.addblk with
  | false => exact ⟨[], rfl, by simp, rfl⟩
  | true =>
    obtain ⟨c, h1, h2, h3, h4⟩ := h ha
    obtain ⟨z, z1, z2, z3, z4, z5⟩ := h4 ws hw
    refine ⟨z, ?_, z3, ?_⟩
    · rw [if_neg (by simp), h2, strmOpen_of (code_le c) h3, Out.bind_ok, addData, h2,
        if_neg (by revert h1; cases c <;> simp [Comp.code]), z1, Out.bind_ok, Nat.mod_eq_of_lt (by omega),
        List.take_length]
    · rw [openAdd_packed _ _ c h1 z2 z4, z5]; rfl

/-- Writing and reading back an rpm-only delta does not involve rpmlib. -/
theorem rpmonly_roundtrip {d : Delta} {ptrs : List Bytes} (hd : d.Made ptrs) (ht : d.type = .rpmonly) {c : Comp}
    (hc : d.comp = c.code) {compress : Bytes → Out Bytes} {dec : Decoder} (hl : Lossless c compress dec) :
    ∃ file r, (∀ rpmW, writeDelta compress rpmW d = .ok file) ∧ (∀ rpmR, readDelta dec rpmR file = .ok r) ∧
      SameDelta d ptrs r := by
  obtain ⟨file, r, w1, w2, w3, _, _, _⟩ := C07_roundtrip d ptrs hd c hc compress dec hl
    (fun _ => [0xED, 0xAB, 0xEE, 0xDB]) (fun _ => .ok (4, 0)) 0 (fun z => ⟨rfl, [], rfl⟩)
  have hw : ∀ rpmW, writeDelta compress rpmW d = .ok file := by
    intro rpmW
    rw [← w1]
    unfold writeDelta standardPart writeHead
    rw [ht]
  refine ⟨file, r, hw, fun rpmR => ?_, w3⟩
  rw [← w2]
  have : ∃ x, file = [100, 114, 112, 109] ++ x := by
    have := hw fun _ => .ok []
    rw [writeDelta_total compress (fun _ => [])] at this
    unfold writeHead at this
    rw [ht, Out.bind_eq_ok] at this
    obtain ⟨s, _, this⟩ := this
    rw [Out.bind_eq_ok] at this
    obtain ⟨y, _, this⟩ := this
    cases this
    exact ⟨_, by simp only [List.append_assoc]; rfl⟩
  obtain ⟨x, rfl⟩ := this
  unfold readDelta
  rw [show ([100, 114, 112, 109] : Bytes) = createBe32 0x6472706D by decide, fileBe32_create _ (by omega)]
  simp only [Out.bind_ok, if_true]

/-- C48 for rpm-only deltas. For any two packages, any option values (version 3, any compression of
    the delta, add block compressed or absent) and whatever is left over from earlier calls:
    `drpm_make` succeeds, and applying the delta to the old package succeeds and writes a file that
    is byte for byte the new package. -/
theorem C48_rpmonly {σ : Type} (menv : MakeEnv) (env : ApplyEnv σ) (o : Opts Bytes) (old new : Rpm)
    (hg : GoodPair menv env o old new) (ho : o.rpmOnly = true) (hv : o.version = 3)
    (hnevr : GoodNevr new.nevr) (hmd5 : old.sigMd5 = .ok (some (menv.H (old.header ++ old.payload))))
    (hhdr : 0 < new.header.length ∧ new.header.length < 2^32) (hoff : ∃ off, fmtOffset new.header = .ok off)
    (hold : 0 < old.header.length + old.archive.length ∧ old.header.length + old.archive.length ≤ 2^44)
    (hnew : 16 ≤ new.header.length + new.archive.length ∧ new.header.length + new.archive.length < 2^63)
    (hsmall : old.header.length + old.archive.length < 2^31 ∨ new.header.length + new.archive.length < 2^31)
    (hcnt : FewCopies (old.header ++ old.archive) (new.header ++ new.archive) o.addblk)
    (hadd : GoodAdd menv env o (new.header.length + new.archive.length))
    (hcomp : ∀ l, new.level = .ok l → Reproduces env new.comp l new.archive new.payload) :
    ∃ file, drpmMake menv o (some (.ok old)) (some (.ok new)) = .ok file ∧
      ∀ cleanup, drpmApply env ⟨some (.ok file), true, true, .rpm (.ok old)⟩ cleanup =
        (.ok (), .written new.file) := by
  obtain ⟨hH, h16⟩ := hg.md5
  obtain ⟨on, n1, n2, n3⟩ := hg.nevr
  obtain ⟨nn, m1, m2, m3⟩ := hnevr
  obtain ⟨l, l1, l2⟩ := hg.level
  have l3 := l2.le
  obtain ⟨off, f1⟩ := hoff
  obtain ⟨c, k1, k2⟩ := hg.codec l l1
  have hrep := hcomp l l1
  obtain ⟨df, ws, d1, d2, d3, d4, d5, d6, d7, d8, d9, d10, d11, d12⟩ :=
    diff_facts (old.header ++ old.archive) (new.header ++ new.archive) o.addblk
      (by rw [List.length_append]; omega) (by rw [List.length_append]; omega) (by rw [List.length_append]; omega)
      (by simp only [List.length_append]; exact hsmall)
  simp only [List.length_append] at d8 d9
  obtain ⟨c1, c2⟩ := hcnt df d1
  obtain ⟨z, z1, z2, z3⟩ := hadd.stored df.addWrites d9
  obtain ⟨s1, s2, s3, s4, ms, s5, s6⟩ := hg.signature
  -- the delta
  let i : DiffIn := ⟨old.header ++ old.archive, new.header ++ new.archive, menv.H (old.header ++ old.payload), [],
      new.header, new.header.length⟩
  have hi : diffInputs menv o old new = .ok i := by
    unfold diffInputs
    rw [if_pos ho, Nat.mod_eq_of_lt hhdr.2]
  let d := fillDelta menv o new l on nn i off df z
  have e1 : makePair menv o old new = .ok (d, new.header, (deltaComp o new l).2) :=
    makePair_eq hg.cpio l1 n1 (by unfold targetNevr; rw [if_pos ho]; exact m1) hi f1 d1 z1
  have e4 : d.type = .rpmonly := by show (if o.rpmOnly then _ else _) = _; rw [if_pos ho]
  have e2 : d.Made df.intData := by
    constructor
    · exact hg.version
    · exact fun _ => ⟨hv, h16 _, hhdr.1, m2, m3, z2⟩
    · exact ⟨by show on.length + 2 < 2^32; omega, n3⟩
    · show 16 ≤ (menv.H _).length ∧ (menv.H _).length < 2^32
      rw [h16]; omega
    · exact h16 _
    · exact Nat.mod_lt _ (by omega)
    · exact ⟨hg.comp, by show l < 256; omega⟩
    · show 0 < 2^32; omega
    · exact hhdr.2
    · exact ⟨rfl, by show 0 < 2^29; omega, fun _ h => (by cases h), fun _ h => (by cases h)⟩
    · intro h; have : o.version < 3 := h; omega
    · exact s1
    · exact fmtOffset_lt f1
    · exact ⟨rfl, c2, d6 (by omega)⟩
    · exact ⟨rfl, c1, d4, d5⟩
    · refine ⟨?_, d2, d3⟩
      show (old.header ++ old.archive).length < 2^63
      rw [List.length_append]; omega
    · exact Nat.lt_trans z2 (by omega)
    · refine ⟨rfl, d7, rfl, ?_⟩
      show df.intData.flatten.length < 2^64
      omega
  have e3 : d.comp = c.code := k1
  have e15 : d.extDataLen = old.header.length + old.archive.length := List.length_append
  obtain ⟨file, r, hw, hr, w3⟩ := rpmonly_roundtrip e2 e4 e3 k2.toLossless
  refine ⟨file, ?_, fun cleanup => ?_⟩
  · unfold drpmMake
    rw [if_neg (by simp), if_neg (by omega)]
    simp only [makeAny, Out.bind_ok, e1, e3]
    exact hw _
  · have v2 := w3.v2 (by show 2 ≤ o.version; omega)
    have t1 : r.tgtComp = new.comp := v2.2.1
    have t2 : r.tgtCompLevel = l := v2.2.2.1
    have t3 : r.type = .rpmonly := by rw [w3.type, e4]
    have t4 : r.tgtLeadsig = new.leadsig := w3.leadsig
    have hnd : isNoDiff r = false := by
      unfold isNoDiff
      rw [w3.ints.2, w3.exts.2]
      show (_ && decide (df.int.length = 0) && decide (df.ext.length = 0)) = false
      cases hi : df.int with
      | cons a as => simp
      | nil =>
        cases he : df.ext with
        | cons a as => simp
        | nil =>
          rw [hi, he] at d11
          rw [recon_nil _ _ _ _ _ d11] at d12
          have := congrArg List.length d12
          simp at this
          omega
    have htab : ∃ cfg, blocksCreate r.extDataLen r.exts = .ok cfg := by
      rw [w3.extLen, e15, w3.exts.1]
      rw [List.length_append] at d2
      rcases C25_tables _ df.ext hold.1 (by omega) d2 d3 with ⟨_, h⟩ | ⟨cfg, h, _⟩
      · omega
      · exact ⟨cfg, h⟩
    obtain ⟨cfg, htab⟩ := htab
    show applyTo env (.ok file) (.rpm (.ok old)) cleanup = _
    have hf : new.file = new.leadsig ++ (new.header ++ new.payload) := by
      unfold Rpm.file; rw [List.append_assoc]
    rw [hf]
    refine applyTo_ok (p := old.toPkg) (old := .rpm old) (files := []) (places := []) (m := ms) (hr _) ?_
      (by rw [w3.srcNevr, n1]; rfl) ?_ ?_ ?_ ?_ ?_
    · simp only [applyOld, sameSource]
      rw [Out.bind_ok, t3, w3.sequence, hmd5, show d.sequence = menv.H (old.header ++ old.payload) from rfl]
      simp only [if_true, Out.bind_ok]
      rw [rdBlk_ok (by rw [h16]; omega), Out.bind_ok]
      have : slice (menv.H (old.header ++ old.payload)) 0 16 = menv.H (old.header ++ old.payload) := by
        unfold slice
        rw [List.drop_zero, List.take_of_length_le (by rw [h16]; omega)]
      rw [this, if_neg (by simp), Out.bind_ok]
    · unfold applyPlaces
      rw [if_pos t3]
    · rw [t4]
      exact replaceSig_of s1.1 s2 s4 s3 s5
    · rw [planBody_diff hnd]
      have hl : applyLoop r (.rpm old) [] [] cfg cleanup (if o.addblk then some df.addWrites.flatten else none) = .ok ws := by
        unfold applyLoop
        simp only [t3]
        rw [w3.extLen, e15, w3.exts.1, show d.exts = df.ext from rfl] at htab
        rw [w3.extLen, e15, w3.exts.1, w3.ints.1, w3.intData.2, show d.exts = df.ext from rfl, show d.ints = df.int from rfl]
        rw [List.length_append] at d2
        rw [C22_applied old.header old.archive (by omega) _ hold.1 (Nat.le_refl _) _ _ d2 d3 cleanup cfg htab]
        rw [List.take_of_length_le (by rw [List.length_append]; omega)]
        cases ha : o.addblk with
        | true => rw [ha] at d11; exact d11
        | false => rw [ha] at d11; rw [d10 ha] at d11; exact d11
      rw [planDiff_ok (cfg := cfg) (add := if o.addblk then some df.addWrites.flatten else none) (ws := ws)
        (pre := new.header) (archive := new.archive) (payload := new.payload) (hdr := [])
        (by rw [w3.ints.2, w3.ints.1, w3.exts.2, w3.exts.1, e2.ints.1, e2.exts.1]; exact ⟨rfl, rfl⟩)
        htab (by rw [w3.add]; exact z3) hl d12 w3.header.symm
        (by rw [t1, t2]; exact strmOpen_of (by have := hg.comp; simp at this; omega) l2)
        (by unfold applyHeader; rw [if_pos t3]) (by rw [t1, t2]; exact hrep)]
      rw [t4]
      rfl
    · rw [w3.md5, hH, ← hf]
      rfl
    · exact s6

/-- What a standard delta needs of the old package: the archive was written by `rpmbuild` (entries
    with distinct names, zero padding, no data in directories and such, see `Plain`), the file list
    is within the limits of the CPIO format, and the altered archive and its adjustments are within
    the limits of the delta format. -/
structure GoodOld (menv : MakeEnv) (o : Opts Bytes) (old : Rpm) (m : MakeIn) (c : Made) : Prop where
  files : old.files = .ok m.files
  algo : old.algo = .ok m.algo
  input : m.archive = old.archive ∧ m.colors = old.colors ∧ m.offadj = decide (o.version ≥ 3) ∧
    m.unpatched = menv.unpatched
  size : m.archive.length < 2^63 ∧ m.files.length < 2^32
  fit : FilesFit m
  plain : ∀ es, Entries m.archive 0 es → Plain m es
  made : makeCpio menv.H m = .ok c
  limits : c.cpio.length ≤ 2^44 ∧ c.offadjs.length < 2^29 ∧ (o.version < 3 → c.cpio.length < 2^32)

/-- What a standard delta needs of rpmlib: the header of the new package, marked as a delta, can be
    put in front of any data (`head`) and found there again, with its payload compression `hc`, and taking
    away the mark gives the header of the new package. -/
structure GoodHeader {σ : Type} (menv : MakeEnv) (env : ApplyEnv σ) (new : Rpm) (marked : Bytes) (head : Bytes → Bytes) (hc : Nat) : Prop where
  mark : menv.markHeader new.header = .ok marked
  offset : ∃ off, fmtOffset marked = .ok off
  wrote : ∀ z, menv.rpmW marked z = .ok (head z)
  found : ∀ z, env.rpmHead (head z ++ z) = .ok ((head z).length, hc)
  magic : ∀ z, ∃ t, head z = [0xED, 0xAB, 0xEE, 0xDB] ++ t
  back : ∀ z, env.tgtHeader (head z ++ z) = .ok new.header

theorem GoodHeader.fn {σ : Type} {menv : MakeEnv} {env : ApplyEnv σ} {new : Rpm} {marked : Bytes} {head : Bytes → Bytes} {hc : Nat}
    (h : GoodHeader menv env new marked head hc) : menv.rpmW marked = fun z => .ok (head z) := funext h.wrote

/-- Making a standard delta and applying it to whatever yields the altered archive. -/
theorem standard_from {σ : Type} (menv : MakeEnv) (env : ApplyEnv σ) (o : Opts Bytes) (old new : Rpm)
    (hg : GoodPair menv env o old new) (ho : o.rpmOnly = false)
    (m : MakeIn) (c : Made) (hm : GoodOld menv o old m c)
    (marked : Bytes) (head : Bytes → Bytes) (hc : Nat) (hh : GoodHeader menv env new marked head hc)
    (hv1 : o.version = 1 → hc = new.comp)
    (hnew : 16 ≤ new.archive.length ∧ new.archive.length < 2^63 ∧ (o.version < 3 → new.archive.length < 2^32))
    (hsmall : c.cpio.length < 2^31 ∨ new.archive.length < 2^31)
    (hcnt : FewCopies c.cpio new.archive o.addblk)
    (hadd : GoodAdd menv env o new.archive.length)
    (hcomp : ∀ l, new.level = .ok l →
      Reproduces env new.comp (if o.version = 1 then 0 else l) new.archive new.payload)
    (src : OldSrc) (p : Pkg) (od : OldData)
    (hsrc : ∀ z d, d.type = .standard → old.nevr = .ok d.srcNevr →
      applyOld env (head z ++ z) d src = .ok (p, od))
    (fs : List FileInfo) (hp : p.nevr = old.nevr ∧ p.files = .ok fs ∧ p.algo = .ok m.algo) (hfs : SameButColors fs m.files)
    (hloop : ∀ d cfg cleanup add, d.type = .standard → (∃ df, makeDiff c.cpio new.archive o.addblk = .ok df ∧ d.exts = df.ext) →
      CopiesInside c.cpio.length 0 d.exts → EndsPositive 0 d.exts →
      blocksCreate c.cpio.length d.exts = .ok cfg →
      ∃ places, expandSeq menv.H m.files m.algo noCheck c.sequence = .ok places ∧
        applyLoop d od m.files places cfg cleanup add =
          reconWrites (flatNext c.cpio) () add.isSome d.exts d.ints d.intBytes (add.getD [])) :
    ∃ file, drpmMake menv o (some (.ok old)) (some (.ok new)) = .ok file ∧
      ∀ cleanup, drpmApply env ⟨some (.ok file), true, true, src⟩ cleanup = (.ok (), .written new.file) := by
  obtain ⟨hH, h16⟩ := hg.md5
  obtain ⟨on, n1, n2, n3⟩ := hg.nevr
  obtain ⟨l, l1, l2⟩ := hg.level
  have l3 := l2.le
  obtain ⟨off, f1⟩ := hh.offset
  obtain ⟨cd, k1, k2⟩ := hg.codec l l1
  have hrep := hcomp l l1
  obtain ⟨q1, q2, ⟨q3, q4, q5, q6⟩, q7, q8, q9, q10, q11⟩ := hm
  obtain ⟨x1, x2, x3, x4, x5⟩ := makeCpio_facts h16 q7.1 q8 q10
  obtain ⟨df, ws, d1, d2, d3, d4, d5, d6, d7, d8, d9, d10, d11, d12⟩ :=
    diff_facts c.cpio new.archive o.addblk hnew.1 (by omega) hnew.2.1 hsmall
  obtain ⟨c1, c2⟩ := hcnt df d1
  obtain ⟨z, z1, z2, z3⟩ := hadd.stored df.addWrites d9
  obtain ⟨s1, s2, s3, s4, ms, s5, s6⟩ := hg.signature
  -- the delta
  let i : DiffIn := ⟨c.cpio, new.archive, c.sequence, c.offadjs, marked, 0⟩
  have hi : diffInputs menv o old new = .ok i := by
    unfold diffInputs
    rw [if_neg (by rw [ho]; simp), q1, Out.bind_ok, q2, Out.bind_ok]
    have : (⟨old.archive, m.files, old.colors, m.algo, decide (o.version ≥ 3), menv.unpatched⟩ : MakeIn) = m := by
      rw [← q3, ← q4, ← q5, ← q6]
    rw [this, q10, Out.bind_ok, hh.mark, Out.bind_ok]
  let d := fillDelta menv o new l on [] i off df z
  have e1 : makePair menv o old new = .ok (d, marked, (deltaComp o new l).2) :=
    makePair_eq hg.cpio l1 n1 (by unfold targetNevr; rw [if_neg (by rw [ho]; simp)]) hi f1 d1 z1
  have e4 : d.type = .standard := by show (if o.rpmOnly then _ else _) = _; rw [if_neg (by rw [ho]; simp)]
  have e2 : d.Made df.intData := by
    constructor
    · exact hg.version
    · intro h; rw [e4] at h; cases h
    · exact ⟨by show on.length + 2 < 2^32; omega, n3⟩
    · exact ⟨x3, x4⟩
    · exact h16 _
    · exact Nat.mod_lt _ (by omega)
    · exact ⟨hg.comp, by show l < 256; omega⟩
    · show 0 < 2^32; omega
    · show 0 < 2^32; omega
    · exact ⟨rfl, q11.2.1, x1.1, x1.2⟩
    · intro h
      have h : o.version < 3 := h
      refine ⟨rfl, x2 (by rw [q5]; simp; omega), q11.2.2 h, ?_⟩
      show df.intData.flatten.length < 2^32
      have := hnew.2.2 h
      omega
    · exact s1
    · exact fmtOffset_lt f1
    · exact ⟨rfl, c2, d6 (by omega)⟩
    · exact ⟨rfl, c1, d4, d5⟩
    · refine ⟨?_, d2, d3⟩
      show c.cpio.length < 2^63
      omega
    · exact Nat.lt_trans z2 (by omega)
    · refine ⟨rfl, d7, rfl, ?_⟩
      show df.intData.flatten.length < 2^64
      omega
  have e3 : d.comp = cd.code := k1
  obtain ⟨file, r, w1, w2, w3, _, w5, _⟩ := C07_roundtrip d df.intData e2 cd e3 _ _ k2.toLossless
    head env.rpmHead hc (fun z => ⟨hh.found z, hh.magic z⟩)
  have hback : env.tgtHeader file = .ok new.header ∧ ∃ z, file = head z ++ z := by
    have := w1
    rw [writeDelta_total] at this
    unfold writeHead at this
    rw [e4, Out.bind_eq_ok] at this
    obtain ⟨s, _, this⟩ := this
    rw [Out.bind_eq_ok] at this
    obtain ⟨y, _, this⟩ := this
    cases this
    exact ⟨hh.back y, y, rfl⟩
  refine ⟨file, ?_, fun cleanup => ?_⟩
  · unfold drpmMake
    rw [if_neg (by simp), if_neg (by rw [ho]; simp)]
    simp only [makeAny, Out.bind_ok, e1, e3, hh.fn]
    exact w1
  · have t1 : r.tgtComp = new.comp ∧ r.tgtCompLevel = (if o.version = 1 then 0 else l) := by
      by_cases h1 : o.version = 1
      · obtain ⟨y1, _, _, y2⟩ := w5 h1
        rw [if_pos h1]
        exact ⟨by rw [y1, hv1 h1], y2⟩
      · have v2 := w3.v2 (by show 2 ≤ o.version; have := hg.version; omega)
        rw [if_neg h1]
        exact ⟨v2.2.1, v2.2.2.1⟩
    have t3 : r.type = .standard := by rw [w3.type, e4]
    have t4 : r.tgtLeadsig = new.leadsig := w3.leadsig
    have hnd : isNoDiff r = false := by
      unfold isNoDiff
      rw [t3]
      rfl
    have htab : ∃ cfg, blocksCreate c.cpio.length df.ext = .ok cfg := by
      rcases C25_tables _ df.ext x5 (by omega) d2 d3 with ⟨_, h⟩ | ⟨cfg, h, _⟩
      · omega
      · exact ⟨cfg, h⟩
    obtain ⟨cfg, htab⟩ := htab
    obtain ⟨places, p1, p2⟩ := hloop r cfg cleanup (if o.addblk then some df.addWrites.flatten else none) t3 ⟨df, d1, w3.exts.1⟩
      (by rw [w3.exts.1]; exact d2) (by rw [w3.exts.1]; exact d3) (by rw [w3.exts.1]; exact htab)
    show applyTo env (.ok file) src cleanup = _
    have hf : new.file = new.leadsig ++ (new.header ++ new.payload) := by
      unfold Rpm.file; rw [List.append_assoc]
    rw [hf]
    refine applyTo_ok (p := p) (old := od) (files := fs) (places := places) (m := ms) w2 ?_
      (by rw [w3.srcNevr, hp.1, n1]; rfl) ?_ ?_ ?_ ?_ ?_
    · obtain ⟨z, rfl⟩ := hback.2
      exact hsrc z r t3 (by rw [w3.srcNevr, n1]; rfl)
    · unfold applyPlaces
      rw [if_neg (by rw [t3]; simp), hp.2.1, Out.bind_ok, hp.2.2, Out.bind_ok, hH, w3.sequence,
        show d.sequence = c.sequence from rfl, expandSeq_colors _ hfs, p1, Out.bind_ok]
    · rw [t4]
      exact replaceSig_of s1.1 s2 s4 s3 s5
    · rw [planBody_diff hnd]
      have hl : applyLoop r od fs places cfg cleanup
          (if o.addblk then some df.addWrites.flatten else none) = .ok ws := by
        rw [applyLoop_colors _ _ hfs, p2, w3.exts.1, w3.ints.1, w3.intData.2, show d.exts = df.ext from rfl, show d.ints = df.int from rfl]
        cases ha : o.addblk with
        | true => rw [ha] at d11; exact d11
        | false => rw [ha, d10 ha] at d11; exact d11
      rw [planDiff_ok (cfg := cfg) (add := if o.addblk then some df.addWrites.flatten else none) (ws := ws)
        (pre := []) (archive := new.archive) (payload := new.payload) (hdr := new.header)
        (by rw [w3.ints.2, w3.ints.1, w3.exts.2, w3.exts.1, e2.ints.1, e2.exts.1]; exact ⟨rfl, rfl⟩)
        (by rw [w3.extLen, w3.exts.1]; exact htab) (by rw [w3.add]; exact z3) hl d12 w3.header.symm
        (by
          rw [t1.1, t1.2]
          refine strmOpen_of (by have := hg.comp; simp at this; omega) ?_
          split
          · exact Or.inl (Nat.zero_le _)
          · exact l2)
        (by unfold applyHeader; rw [if_neg (by rw [t3]; simp)]; exact hback.1) (by rw [t1.1, t1.2]; exact hrep)]
      rw [t4, List.append_nil]
    · rw [w3.md5, hH, ← hf]
      rfl
    · exact s6

/-- C48 for standard deltas of every version, applied to the old package file. Version 1 does not
    record method and level of the payload compression: the method is the one in the header, the
    level is the default. `old'` is the old package as it is read when the delta is applied; colours
    of files are not read then. -/
theorem C48_standard {σ : Type} (menv : MakeEnv) (env : ApplyEnv σ) (o : Opts Bytes) (old new : Rpm)
    (hg : GoodPair menv env o old new) (ho : o.rpmOnly = false)
    (m : MakeIn) (c : Made) (hm : GoodOld menv o old m c)
    (marked : Bytes) (head : Bytes → Bytes) (hc : Nat) (hh : GoodHeader menv env new marked head hc)
    (hv1 : o.version = 1 → hc = new.comp)
    (hnew : 16 ≤ new.archive.length ∧ new.archive.length < 2^63 ∧ (o.version < 3 → new.archive.length < 2^32))
    (hsmall : c.cpio.length < 2^31 ∨ new.archive.length < 2^31)
    (hcnt : FewCopies c.cpio new.archive o.addblk)
    (hadd : GoodAdd menv env o new.archive.length)
    (hcomp : ∀ l, new.level = .ok l →
      Reproduces env new.comp (if o.version = 1 then 0 else l) new.archive new.payload)
    (old' : Rpm) (fs : List FileInfo) (hp : old'.nevr = old.nevr ∧ old'.files = .ok fs ∧ old'.algo = old.algo ∧ old'.archive = old.archive)
    (hfs : SameButColors fs m.files) :
    ∃ file, drpmMake menv o (some (.ok old)) (some (.ok new)) = .ok file ∧
      ∀ cleanup, drpmApply env ⟨some (.ok file), true, true, .rpm (.ok old')⟩ cleanup =
        (.ok (), .written new.file) := by
  have h16 := hg.md5.2
  have hlim := hm.limits.1
  refine standard_from menv env o old new hg ho m c hm marked head hc hh hv1 hnew hsmall hcnt hadd hcomp (.rpm (.ok old'))
    old'.toPkg (.rpm old') ?_ fs ⟨hp.1, hp.2.1, by rw [hp.2.2.1, hm.algo]⟩ hfs ?_
  · intro z d ht _
    simp only [applyOld, sameSource]
    rw [Out.bind_ok, ht]
    simp
  · intro d cfg cleanup add ht hx hi he hb
    obtain ⟨places, p1, p2⟩ := C21_applied menv.H h16 m c hm.size.1 hm.size.2 hm.fit hm.made hm.plain (by omega) d.exts
      d.ints hi he cleanup cfg hb add.isSome d.intBytes (add.getD [])
    refine ⟨places, p1, ?_⟩
    unfold applyLoop
    simp only [ht]
    rw [hp.2.2.2, ← hm.input.1]
    exact p2

/-- C48 for standard deltas applied to installed files: the old package is in the database, and its
    files are installed unchanged, or changed only by prelink. `Servable` stands in for the defects of C40. The delta must not be one of a source package. -/
theorem C48_installed {σ : Type} (menv : MakeEnv) (env : ApplyEnv σ) (o : Opts Bytes) (old new : Rpm)
    (hg : GoodPair menv env o old new) (ho : o.rpmOnly = false)
    (m : MakeIn) (c : Made) (hm : GoodOld menv o old m c)
    (marked : Bytes) (head : Bytes → Bytes) (hc : Nat) (hh : GoodHeader menv env new marked head hc)
    (hv1 : o.version = 1 → hc = new.comp)
    (hnew : 16 ≤ new.archive.length ∧ new.archive.length < 2^63 ∧ (o.version < 3 → new.archive.length < 2^32))
    (hsmall : c.cpio.length < 2^31 ∨ new.archive.length < 2^31)
    (hcnt : FewCopies c.cpio new.archive o.addblk)
    (hadd : GoodAdd menv env o new.archive.length)
    (hcomp : ∀ l, new.level = .ok l →
      Reproduces env new.comp (if o.version = 1 then 0 else l) new.archive new.payload)
    (db : Db) (disk : Disk) (p : Pkg)
    (hdb : ∀ n, old.nevr = .ok n → readInstalled db n = .ok p)
    (fs : List FileInfo) (hp : p.nevr = old.nevr ∧ p.files = .ok fs ∧ p.algo = old.algo) (hfs : SameButColors fs m.files)
    (hbin : ∀ z, env.tgtSource (head z ++ z) = false)
    (hdisk : ∀ es, Entries m.archive 0 es → ∃ get, OldInstalled m disk get es ∧
      ∀ df, makeDiff c.cpio new.archive o.addblk = .ok df → Servable m disk get es df.ext) :
    ∃ file, drpmMake menv o (some (.ok old)) (some (.ok new)) = .ok file ∧
      ∀ cleanup, drpmApply env ⟨some (.ok file), true, true, .installed db disk⟩ cleanup =
        (.ok (), .written new.file) := by
  have h16 := hg.md5.2
  have hlim := hm.limits.1
  refine standard_from menv env o old new hg ho m c hm marked head hc hh hv1 hnew hsmall hcnt hadd hcomp (.installed db disk)
    p (.files disk) ?_ fs ⟨hp.1, hp.2.1, by rw [hp.2.2, hm.algo]⟩ hfs ?_
  · intro z d ht hn
    simp only [applyOld]
    rw [if_neg (by rw [ht]; simp), if_neg (by rw [hbin z]; simp), hdb _ hn, Out.bind_ok]
  · intro d cfg cleanup add ht hx hi he hb
    obtain ⟨df, x1, x2⟩ := hx
    obtain ⟨places, p1, p2⟩ := C21_installed menv.H h16 m c disk hm.size.1 hm.size.2 hm.fit hm.made d.exts d.ints
      (fun es he => by
        obtain ⟨get, g1, g2⟩ := hdisk es he
        exact ⟨hm.plain es he, get, g1, by rw [x2]; exact g2 df x1⟩) (by omega)
      hi he cleanup cfg hb add.isSome d.intBytes (add.getD [])
    refine ⟨places, p1, ?_⟩
    unfold applyLoop
    simp only
    exact p2

/-- The condition on the number of copies holds for all payloads that are not too long together. -/
theorem FewCopies.of_sizes (old new : Bytes) (addblk : Bool) (hn : 16 ≤ new.length) (hsmall : old.length < 2^31 ∨ new.length < 2^31)
    (hnew : new.length < 2^33) (hprod : (new.length / 32 + 1) * (old.length / 2147483647 + 1) < 2^29) : FewCopies old new addblk := by
  intro df h
  obtain ⟨_, _, h3, h4⟩ := makeDiff_size hn (by omega) hsmall h
  exact ⟨Nat.lt_of_le_of_lt h3 hprod, by omega⟩

/-- It holds for a new payload of hardly 8 GiB if the old one is below 2 GiB. -/
theorem FewCopies.of_size (old new : Bytes) (addblk : Bool) (hn : 16 ≤ new.length) (hold : old.length < 2^31)
    (hnew : new.length + 32 < 2^33) : FewCopies old new addblk := by
  refine .of_sizes old new addblk hn (Or.inl hold) (by omega) ?_
  have : old.length / 2147483647 + 1 ≤ 2 := by omega
  exact Nat.lt_of_le_of_lt (Nat.mul_le_mul_left _ this) (by omega)

/-! ### A concrete case -/

/-- A stand-in for a compression library: a gzip magic in front of the data. -/
def demoPack (s : Bytes) : Bytes := [0x1F, 0x8B, 8, 0, 0, 0, 0, 0] ++ s

/-- It collects everything and writes it at the end. -/
def demoEnc : Enc Bytes :=
  { init := [], write := fun st b => ([], st ++ b, none), finish := some fun st => (demoPack st, none) }

theorem demoEnc_all (ps : List Bytes) : ∀ st, encodeAll demoEnc st ps = some (demoPack (st ++ ps.flatten)) := by
  induction ps with
  | nil => intro st; simp [encodeAll, demoEnc]
  | cons p ps ih =>
    intro st
    have := ih (st ++ p)
    rw [List.append_assoc] at this
    simp only [encodeAll, demoEnc, List.flatten_cons] at this ⊢
    rw [this]
    rfl

def demoLeadsig : Bytes := [0xED, 0xAB, 0xEE, 0xDB] ++ zeros 92 ++ [0x8E, 0xAD, 0xE8, 0x01] ++ zeros 12

def demoRpm (nevr archive : Bytes) : Rpm :=
  { nevr := .ok nevr, files := .ok demoIn.files, algo := .ok demoIn.algo
    sigMd5 := .ok (some (demoH (demoHeader ++ demoPack archive)))
    leadsig := demoLeadsig, header := demoHeader, payload := demoPack archive, archive
    comp := 1, level := .ok 9, isCpio := .ok true, colors := demoIn.colors, source := false }

def demoOldPkg : Rpm := demoRpm [97, 45, 49] demoArchive

/-- The new package has other contents in one file and one more file. -/
def demoNewPkg : Rpm :=
  demoRpm [97, 45, 50] (demoEntry 1 0o100644 [97] [104, 97, 108, 108, 111] ++ demoEntry 3 0o120777 [98] [97] ++
    demoEntry 5 0o100755 [100] [7, 7, 7] ++ demoEntry 6 0o100644 [101] [42] ++ trailerBytes)

def demoMake : MakeEnv :=
  { H := demoH, markHeader := .ok, addComp := fun _ _ ws => .ok (demoPack ws.flatten)
    compress := fun _ _ s => .ok (demoPack s), rpmW := fun h _ => .ok ([0xED, 0xAB, 0xEE, 0xDB] ++ h)
    unpatched := demoIn.unpatched }

def demoApply : ApplyEnv Bytes :=
  { H := demoH, dec := fun _ z => z.drop 8, rpmHead := fun _ => .ok (demoHeader.length + 4, 1)
    tgtSource := fun _ => false, tgtHeader := fun _ => .ok demoHeader, blobOk := fun il dl => decide (il + dl < 2^24)
    importSig := fun _ => some (.ok (some (demoH (demoHeader ++ demoNewPkg.payload)))), exportSig := .ok
    enc := fun _ _ => demoEnc }

/-- The default options, see `drpm_make_options_defaults`. -/
def demoOpts (rpmOnly : Bool) (version : Nat) (addblk : Bool) : Opts Bytes :=
  { rpmOnly, version, compFromRpm := true, comp := 0, compLevel := 0, addblk, addblkComp := 1, addblkLevel := 9
    seqfile := none, oldrpmprint := none, oldpatchrpm := none, mbytes := 0 }

theorem demo_pair (rpmOnly addblk : Bool) (version : Nat) (hv : 1 ≤ version ∧ version ≤ 3) :
    GoodPair demoMake demoApply (demoOpts rpmOnly version addblk) demoOldPkg demoNewPkg := by
  refine ⟨⟨rfl, fun b => by simp [demoMake, demoH, zeros]⟩, hv, ⟨_, rfl, by decide, by decide⟩, rfl, ⟨9, rfl, Or.inl (Nat.le_refl _)⟩,
    by decide, ⟨by decide, by decide, by decide, by decide, _, rfl, Or.inr rfl⟩, ?_⟩
  rintro l hl
  have hl : Out.ok 9 = Out.ok l := hl
  cases hl
  refine ⟨.gzip, rfl, Or.inl (by show 9 ≤ 9; omega), fun _ s => ⟨_, rfl, by simp [demoPack], ?_, rfl⟩⟩
  exact ⟨_, rfl⟩

theorem demo_size : demoIn.archive.length < 2^63 ∧ demoIn.files.length < 2^32 := by decide +kernel

theorem demo_add (rpmOnly addblk : Bool) (version n : Nat) (hn : n < 2^30) :
    GoodAdd demoMake demoApply (demoOpts rpmOnly version addblk) n := by
  intro _
  refine ⟨.gzip, by simp, rfl, Or.inl (by show 9 ≤ 9; omega), fun ws hw => ⟨_, rfl, ?_, ?_, ⟨_, rfl⟩, rfl⟩⟩
  · simp [demoPack]
  · simp only [demoPack, List.length_append, List.length_cons, List.length_nil]
    omega

theorem demo_reproduces (level : Nat) : Reproduces demoApply 1 level demoNewPkg.archive demoNewPkg.payload := by
  unfold Reproduces
  rw [if_neg (by omega)]
  intro ps h _
  have := demoEnc_all ps []
  rw [h] at this
  exact this

/-- Non-vacuity of C48 for rpm-only deltas: the conditions hold for these packages, with and without
    add block. -/
theorem C48_demo_rpmonly (addblk : Bool) :
    ∃ file, drpmMake demoMake (demoOpts true 3 addblk) (some (.ok demoOldPkg)) (some (.ok demoNewPkg)) = .ok file ∧
      ∀ cleanup, drpmApply demoApply ⟨some (.ok file), true, true, .rpm (.ok demoOldPkg)⟩ cleanup =
        (.ok (), .written demoNewPkg.file) := by
  have h1 : 16 ≤ (demoOldPkg.header ++ demoOldPkg.archive).length ∧
    (demoOldPkg.header ++ demoOldPkg.archive).length < 1000 := by decide +kernel
  have h2 : 16 ≤ (demoNewPkg.header ++ demoNewPkg.archive).length ∧
    (demoNewPkg.header ++ demoNewPkg.archive).length < 1000 := by decide +kernel
  have h1' := h1
  have h2' := h2
  rw [List.length_append] at h1' h2'
  refine C48_rpmonly _ _ _ _ _ (demo_pair true addblk 3 (by omega)) rfl rfl ⟨_, rfl, by decide, by decide⟩ rfl
    (by decide) ⟨5, by decide +kernel⟩ (by omega) (by omega) (by omega)
    (FewCopies.of_size _ _ _ (by omega) (by omega) (by omega)) (demo_add _ _ _ _ (by omega)) (fun l _ => demo_reproduces l)

/-- Non-vacuity of C48 for standard deltas of all versions. -/
theorem C48_demo_standard (addblk : Bool) (version : Nat) (hv : 1 ≤ version ∧ version ≤ 3) :
    ∃ file, drpmMake demoMake (demoOpts false version addblk) (some (.ok demoOldPkg)) (some (.ok demoNewPkg)) = .ok file ∧
      ∀ cleanup, drpmApply demoApply ⟨some (.ok file), true, true, .rpm (.ok demoOldPkg)⟩ cleanup =
        (.ok (), .written demoNewPkg.file) := by
  have h2 : 16 ≤ demoNewPkg.archive.length ∧ demoNewPkg.archive.length < 1000 := by decide +kernel
  have hc : ∀ v, 1 ≤ v → v ≤ 3 → ∃ c, makeCpio demoH { demoIn with offadj := decide (v ≥ 3) } = .ok c ∧
      c.cpio.length < 500 ∧ c.offadjs.length < 10 := by
    intro v v1 v2
    have : Out.okAnd (makeCpio demoH { demoIn with offadj := decide (v ≥ 3) })
        (fun c => c.cpio.length < 500 ∧ c.offadjs.length < 10) = true := by
      match v, v1, v2 with
      | 1, _, _ => decide +kernel
      | 2, _, _ => decide +kernel
      | 3, _, _ => decide +kernel
    rcases hm : makeCpio demoH { demoIn with offadj := decide (v ≥ 3) } with c | _ | _ | _
    · rw [hm] at this
      exact ⟨c, rfl, by simpa [Out.okAnd] using this⟩
    all_goals rw [hm] at this; cases this
  obtain ⟨c, c1, c2, c3⟩ := hc version hv.1 hv.2
  refine C48_standard _ _ _ _ _ (demo_pair false addblk version hv) rfl { demoIn with offadj := decide (version ≥ 3) } c
    ⟨rfl, rfl, ⟨rfl, rfl, rfl, rfl⟩, demo_size, ?_, ?_, c1, by omega, by omega, fun _ => by omega⟩
    demoHeader (fun _ => [0xED, 0xAB, 0xEE, 0xDB] ++ demoHeader) 1 ⟨rfl, ⟨5, by decide +kernel⟩, fun _ => rfl, fun z => ?_, fun z => ⟨_, rfl⟩, fun z => rfl⟩ (fun _ => rfl)
    (by omega) (by omega) (FewCopies.of_size _ _ _ (by omega) (by omega) (by omega)) (demo_add _ _ _ _ (by omega))
    (fun l _ => demo_reproduces _) demoOldPkg _ ⟨rfl, rfl, rfl, rfl⟩ rfl
  · exact demo_fits
  · intro es he
    obtain ⟨p1, p2, p3⟩ := demo_plain es he
    exact ⟨p1, p2, p3⟩
  · show Out.ok _ = Out.ok _
    simp [demoMake]

/-! A package whose file list is in the order of its archive, and its installation. -/

def inOrderIn : MakeIn :=
  { demoIn with files := [demoFile [47, 97] 0o100644 5 [], demoFile [47, 98] 0o120777 1 [97], demoFile [47, 100] 0o100755 3 []] }

/-- The second file was changed by prelink. -/
def inOrderDisk : Disk :=
  { get := fun n => [([47, 97], [104, 101, 108, 108, 111]), ([47, 100], undoElf true)].lookup n
    undo := fun _ => .ok [7, 7, 7] }

def inOrderGet : Bytes → Option Bytes := fun n => [([47, 97], [104, 101, 108, 108, 111]), ([47, 100], [7, 7, 7])].lookup n

def inOrderPkg : Rpm := { demoOldPkg with files := .ok inOrderIn.files }

/-- The database knows "a-1-1" only. -/
def inOrderDb : Db := fun n _ v r => if n = [97] ∧ v = [49] ∧ r = [49] then some { inOrderPkg.toPkg with nevr := .ok [97, 45, 49, 45, 49] } else none

def inOrderOld : Rpm := { inOrderPkg with nevr := .ok [97, 45, 49, 45, 49] }

theorem listThree {k i : Nat} (h : ([0, 1, 2] : List Nat)[k]? = some i) : k = i := by
  match k with
  | 0 => simpa using h
  | 1 => simpa using h
  | 2 => simpa using h
  | k + 3 => simp at h

theorem inOrder_plain (es : List AEnt) (he : Entries inOrderIn.archive 0 es) :
    Plain inOrderIn es ∧ OldInstalled inOrderIn inOrderDisk inOrderGet es ∧
      ∀ ext, Servable inOrderIn inOrderDisk inOrderGet es ext := by
  have : demoEntries = es := entries_unique demo_entries es he
  subst this
  refine ⟨⟨by decide +kernel, ?_, ?_⟩, ?_, fun ext => ⟨?_, Or.inl ⟨by decide +kernel, prelinkSafe_of (by decide +kernel)⟩⟩⟩
  · intro e hm i f _ _
    have : ∀ e ∈ demoEntries, slice demoIn.archive (e.data + e.size) (cpioPadding e.size) = zeros (cpioPadding e.size) := by
      decide +kernel
    exact this e hm
  · intro e hm i f hk h1 h2
    have : ∀ e ∈ demoEntries, (match keepFile inOrderIn e.name e.size with
      | some (_, f) => isReg f || isLnk f | none => true) = true := by decide +kernel
    have := this e hm
    rw [hk] at this
    simp [h1, h2] at this
  · intro i f e h hr
    have : ∀ x ∈ kept inOrderIn demoEntries, isReg x.2.1 = true →
        inOrderGet x.2.1.name = some (slice inOrderIn.archive x.2.2.data x.2.2.size) := by decide +kernel
    refine ⟨this _ h hr, ?_⟩
    have hin : Installed inOrderDisk inOrderGet (keptFiles inOrderIn demoEntries) := installed_of (by decide +kernel)
    obtain ⟨d, d1, d2, d3⟩ := hin (i, f) (by unfold keptFiles; exact List.mem_map.mpr ⟨_, h, rfl⟩) hr
    have e := this _ h hr
    simp only at e d1 d3
    rw [d1] at e
    cases e
    exact d3
  · intro k i f e h _ _
    have : (kept inOrderIn demoEntries).map (fun x => x.1) = [0, 1, 2] := by decide +kernel
    have hk : ((kept inOrderIn demoEntries).map (fun x => x.1))[k]? = some i := by rw [List.getElem?_map, h]; rfl
    rw [this] at hk
    exact listThree hk

/-- The same package without prelink: copies that go forward are served whatever the number of files. -/
example : ∃ es, Entries inOrderIn.archive 0 es ∧ Servable inOrderIn { inOrderDisk with get := inOrderGet } inOrderGet es [(0, 5), (3, 9)] := by
  have h1 := inOrder_plain demoEntries demo_entries
  refine ⟨demoEntries, demo_entries, C40_forward_servable (disk := { inOrderDisk with get := inOrderGet }) demo_entries ?_
    (h1.2.2 []).order ?_ (by decide +kernel) ?_⟩
  · intro i f e h hr
    have : ∀ x ∈ kept inOrderIn demoEntries, isReg x.2.1 = true →
        inOrderGet x.2.1.name = some (slice inOrderIn.archive x.2.2.data x.2.2.size) ∧ (slice inOrderIn.archive x.2.2.data x.2.2.size).length = x.2.1.size := by
      decide +kernel
    obtain ⟨t1, t2⟩ := this _ h hr
    exact ⟨t1, Or.inr (Or.inl ⟨_, t1, List.prefix_rfl, Or.inl t2⟩)⟩
  · rintro x hx ⟨hr, d, d1, e, e1, e2, _⟩
    have : ∀ x ∈ keptFiles inOrderIn demoEntries, isReg x.2 = true → (inOrderGet x.2.name).map List.length = some x.2.size := by decide +kernel
    have := this x hx hr
    have e1 : inOrderGet x.2.name = some e := e1
    rw [e1] at this
    exact e2 (by simpa using this)
  · intro x hx
    have : ∀ x ∈ ([(0, 5), (3, 9)] : List (Nat × Nat)), 0 ≤ s32 x.1 := by decide
    exact this x hx


/-- Non-vacuity of C48 for installed files. -/
theorem C48_demo_installed (addblk : Bool) :
    ∃ file, drpmMake demoMake (demoOpts false 3 addblk) (some (.ok inOrderOld)) (some (.ok demoNewPkg)) = .ok file ∧
      ∀ cleanup, drpmApply demoApply ⟨some (.ok file), true, true, .installed inOrderDb inOrderDisk⟩ cleanup =
        (.ok (), .written demoNewPkg.file) := by
  have h2 : 16 ≤ demoNewPkg.archive.length ∧ demoNewPkg.archive.length < 1000 := by decide +kernel
  have hc : Out.okAnd (makeCpio demoH inOrderIn) (fun c => c.cpio.length < 500 ∧ c.offadjs.length < 10) = true := by
    decide +kernel
  obtain ⟨c, c1, c2⟩ := okAnd_ok hc
  simp only [decide_eq_true_eq] at c2
  obtain ⟨g1, g2, g3, g4, g5, g6, g7, g8⟩ := demo_pair false addblk 3 (by omega)
  have hdb : readInstalled inOrderDb [97, 45, 49, 45, 49] = .ok { inOrderPkg.toPkg with nevr := .ok [97, 45, 49, 45, 49] } := by
    have : splitNevr [97, 45, 49, 45, 49] = .ok ([97], none, [49], [49]) := by rfl
    unfold readInstalled
    rw [this, Out.bind_ok]
    rfl
  refine C48_installed _ _ _ _ _ ⟨g1, g2, ⟨_, rfl, by decide, by decide⟩, rfl, g5, g6, g7, g8⟩ rfl inOrderIn c
    ⟨rfl, rfl, ⟨rfl, rfl, rfl, rfl⟩, by decide +kernel, ?_, fun es he => (inOrder_plain es he).1, c1, by omega, by omega, fun _ => by omega⟩
    demoHeader (fun _ => [0xED, 0xAB, 0xEE, 0xDB] ++ demoHeader) 1 ⟨rfl, ⟨5, by decide +kernel⟩, fun _ => rfl, fun z => ?_, fun z => ⟨_, rfl⟩, fun z => rfl⟩ (fun _ => rfl)
    (by omega) (by omega) (FewCopies.of_size _ _ _ (by omega) (by omega) (by omega)) (demo_add _ _ _ _ (by omega))
    (fun l _ => demo_reproduces _) inOrderDb inOrderDisk _ ?_ _ ⟨rfl, rfl, rfl⟩ rfl (fun _ => rfl)
    (fun es he => ⟨_, (inOrder_plain es he).2.1, fun df _ => (inOrder_plain es he).2.2 _⟩)
  · intro f hf
    have : ∀ f ∈ inOrderIn.files, f.mode < 2^16 ∧ f.rdev < 2^16 ∧ f.size + 3 < 2^32 ∧ f.linkto.length + 3 < 2^32 ∧
      f.name.length + 3 < 2^16 := by decide +kernel
    obtain ⟨a, b, c, d, e⟩ := this f hf
    exact ⟨a, b, c, d, e⟩
  · show Out.ok _ = Out.ok _
    simp [demoMake]
  · intro n hn
    have hn : Out.ok [97, 45, 49, 45, 49] = Out.ok n := hn
    cases hn
    exact hdb

/-- Non-vacuity of C26: there are calls that succeed. -/
example : ∃ a, drpmApply demoApply a 0 = (.ok (), .written demoNewPkg.file) := by
  obtain ⟨file, _, h⟩ := C48_demo_rpmonly true
  exact ⟨_, h 0⟩

/-! ## C44 -/

/-- What making an identity delta needs. -/
structure GoodSingle {σ : Type} (menv : MakeEnv) (env : ApplyEnv σ) (o : Opts Bytes) (r : Rpm) : Prop where
  md5 : env.H = menv.H ∧ ∀ b, (menv.H b).length = 16
  version : o.version = 3
  rpmOnly : o.rpmOnly = true
  nevr : GoodNevr r.nevr
  header : 0 < r.header.length ∧ r.header.length < 2^32
  signature : GoodSignature env r
  export_ : env.exportSig r.leadsig = .ok r.leadsig
  sigMd5 : r.sigMd5 = .ok (some (menv.H (r.header ++ r.payload)))
  codec : ∃ c, (if o.compFromRpm then 1 else o.comp) = c.code ∧
    GoodCodec menv env c (if o.compFromRpm then 0 else o.compLevel)

/-- The identity delta of a package can be made from the package as the old or as the new one, and what
    is read back from it. -/
theorem identity_read {σ : Type} (menv : MakeEnv) (env : ApplyEnv σ) (o : Opts Bytes) (r : Rpm)
    (h : GoodSingle menv env o r) :
    ∃ file q, drpmMake menv o (some (.ok r)) none = .ok file ∧ drpmMake menv o none (some (.ok r)) = .ok file ∧
      readDelta env.dec env.rpmHead file = .ok q ∧ q.type = .rpmonly ∧ isNoDiff q = true ∧ r.nevr = .ok q.srcNevr ∧
      q.sequence = menv.H (r.header ++ r.payload) ∧ q.tgtLeadsig = r.leadsig ∧ q.tgtMd5 = menv.H r.file := by
  obtain ⟨⟨_, h16⟩, hv, ho, ⟨n, n1, n2, n3⟩, hhdr, ⟨s1, _, _, _, _, _, _⟩, _, _, c, k1, k2⟩ := h
  let d0 : Delta :=
    { Delta.zero with
      type := .rpmonly
      comp := if o.compFromRpm then 1 else o.comp
      version := o.version
      tgtNevr := n
      srcNevr := n
      sequence := menv.H (r.header ++ r.payload)
      tgtMd5 := menv.H r.file
      tgtSize := r.file.length % 2^32
      tgtHeaderLen := r.header.length % 2^32
      tgtLeadsig := r.leadsig }
  let d : Delta := { d0 with intPtrs := some [] }
  have e1 : makeNoDiff menv o r = .ok (d0, [], if o.compFromRpm then 0 else o.compLevel) := by
    unfold makeNoDiff
    rw [n1, Out.bind_ok]
  have e2 : d.Made [] := by
    constructor
    · show 1 ≤ o.version ∧ o.version ≤ 3
      omega
    · refine fun _ => ⟨hv, h16 _, ?_, n2, n3, ?_⟩
      · show 0 < r.header.length % 2^32
        rw [Nat.mod_eq_of_lt hhdr.2]; exact hhdr.1
      · show 0 < 2^31 - 2^12
        omega
    · exact ⟨by show n.length + 2 < 2^32; omega, n3⟩
    · show 16 ≤ (menv.H _).length ∧ (menv.H _).length < 2^32
      rw [h16]; omega
    · exact h16 _
    · exact Nat.mod_lt _ (by omega)
    · exact ⟨by show (0 : Nat) ∈ _; simp, by show 0 < 256; omega⟩
    · show 0 < 2^32; omega
    · exact Nat.mod_lt _ (by omega)
    · exact ⟨rfl, by show 0 < 2^29; omega, fun _ h => (by cases h), fun _ h => (by cases h)⟩
    · intro h; have : o.version < 3 := h; omega
    · exact s1
    · show 0 < 2^32; omega
    · exact ⟨rfl, by show 0 < 2^29; omega, fun _ h => (by cases h)⟩
    · exact ⟨rfl, by show 0 < 2^29; omega, fun _ h => (by cases h), fun _ h => (by cases h)⟩
    · exact ⟨by show 0 < 2^63; omega, trivial, trivial⟩
    · show 0 < 2^32; omega
    · exact ⟨rfl, rfl, rfl, by show 0 < 2^64; omega⟩
  obtain ⟨file, q, hw, hr, w3⟩ := rpmonly_roundtrip e2 rfl k1 k2.toLossless
  have hw0 : ∀ rpmW, writeDelta (compressDelta menv c.code (if o.compFromRpm then 0 else o.compLevel)) rpmW d0 = .ok file :=
    hw
  have t3 : q.type = .rpmonly := w3.type
  have v2 := w3.v2 (by show 2 ≤ o.version; omega)
  have hnd : isNoDiff q = true := by
    unfold isNoDiff
    rw [t3, w3.ints.2, w3.exts.2, v2.2.1]
    rfl
  have t4 : q.tgtLeadsig = r.leadsig := w3.leadsig
  have t5 : q.tgtMd5 = menv.H r.file := w3.md5
  refine ⟨file, q, ?_, ?_, hr _, t3, hnd, by rw [n1, w3.srcNevr], w3.sequence, t4, t5⟩
  · unfold drpmMake
    rw [if_neg (by simp), if_neg (by omega)]
    simp only [makeAny, Out.bind_ok, ho, if_true, e1]
    rw [show d0.comp = c.code from k1]
    exact hw0 _
  · unfold drpmMake
    rw [if_neg (by simp), if_neg (by omega)]
    simp only [makeAny, Out.bind_ok, ho, if_true, e1]
    rw [show d0.comp = c.code from k1]
    exact hw0 _

/-- What the identity delta of a package, applied to that package, writes: lead, signature, header
    and the *decompressed* payload; then the MD5 of this file is compared. -/
theorem identity_applied {σ : Type} (menv : MakeEnv) (env : ApplyEnv σ) (o : Opts Bytes) (r : Rpm)
    (h : GoodSingle menv env o r) :
    ∃ file, drpmMake menv o (some (.ok r)) none = .ok file ∧ drpmMake menv o none (some (.ok r)) = .ok file ∧
      ∀ cleanup, (drpmApply env ⟨some (.ok file), true, true, .rpm (.ok r)⟩ cleanup).2 =
          .written (r.leadsig ++ r.header ++ r.archive) ∧
        (env.H r.file ≠ zeros 16 → (drpmApply env ⟨some (.ok file), true, true, .rpm (.ok r)⟩ cleanup).1 =
          if env.H (r.leadsig ++ r.header ++ r.archive) = env.H r.file then .ok () else .err .mismatch) := by
  obtain ⟨file, q, hm1, hm2, hr, t3, hnd, n1, t1, t4, t5⟩ := identity_read menv env o r h
  obtain ⟨⟨hH, h16⟩, hv, ho, _, hhdr, ⟨s1, s2, s3, s4, ms, s5, s6⟩, hex, hmd5, _⟩ := h
  have hplan : ∀ cleanup, planApply env file (.rpm (.ok r)) cleanup =
      .ok ⟨q, .ok ms, .ok (r.leadsig ++ r.header ++ r.archive,
        (if noFullMd5 q then [] else r.leadsig) ++ r.header ++ r.archive)⟩ := by
    intro cleanup
    unfold planApply
    rw [hr, Out.bind_ok]
    simp only [applyOld, sameSource]
    rw [Out.bind_ok, if_pos t3, hmd5, Out.bind_ok]
    simp only
    rw [t1, rdBlk_ok (by rw [h16]; omega), Out.bind_ok]
    have : slice (menv.H (r.header ++ r.payload)) 0 16 = menv.H (r.header ++ r.payload) := by
      unfold slice
      rw [List.drop_zero, List.take_of_length_le (by rw [h16]; omega)]
    rw [this, if_neg (by simp), Out.bind_ok, Out.bind_ok]
    simp only [sameNevr]
    rw [n1, Out.bind_ok, if_neg (by simp), Out.bind_ok]
    unfold applyPlaces
    rw [if_pos t3, Out.bind_ok]
    simp only
    rw [t4, replaceSig_of s1.1 s2 s4 s3 s5, Out.bind_ok]
    unfold planBody writeOld
    rw [hnd]
    simp only
    rw [t4, hex, Out.bind_ok, Out.bind_ok]
  refine ⟨file, hm1, hm2, fun cleanup => ?_⟩
  · show (applyTo env (.ok file) (.rpm (.ok r)) cleanup).2 = _ ∧ (_ → (applyTo env (.ok file) (.rpm (.ok r)) cleanup).1 = _)
    unfold applyTo
    rw [Out.bind_ok, hplan]
    simp only [finishApply]
    refine ⟨trivial, fun hz => ?_⟩
    unfold finalCheck
    have : noFullMd5 q = false := by
      unfold noFullMd5
      rw [t5, ← hH]
      simpa using hz
    rw [this]
    simp only [Bool.false_eq_true, if_false]
    rw [t5, ← hH]
    by_cases he : env.H (r.leadsig ++ r.header ++ r.archive) = env.H r.file
    · rw [if_neg (by rw [he]; simp), if_pos he]
    · rw [if_pos he, if_neg he]

/-- C44 is violated by every package whose payload is compressed: applying its identity delta leaves
    a different file at the output path, and if MD5 tells the two files apart the call reports a
    mismatch. -/
theorem C44_violated {σ : Type} (menv : MakeEnv) (env : ApplyEnv σ) (o : Opts Bytes) (r : Rpm)
    (h : GoodSingle menv env o r) (hp : r.payload ≠ r.archive) :
    ∃ file, drpmMake menv o (some (.ok r)) none = .ok file ∧
      ∀ cleanup, (drpmApply env ⟨some (.ok file), true, true, .rpm (.ok r)⟩ cleanup).2 ≠ .written r.file ∧
        (env.H r.file ≠ zeros 16 → env.H (r.leadsig ++ r.header ++ r.archive) ≠ env.H r.file →
          (drpmApply env ⟨some (.ok file), true, true, .rpm (.ok r)⟩ cleanup).1 = .err .mismatch) := by
  obtain ⟨file, h1, _, h2⟩ := identity_applied menv env o r h
  refine ⟨file, h1, fun cleanup => ⟨fun hc => ?_, fun hz hne => ?_⟩⟩
  · rw [(h2 cleanup).1] at hc
    simp only [Left.written.injEq, Rpm.file, List.append_cancel_left_eq] at hc
    exact hp hc.symm
  · rw [(h2 cleanup).2 hz, if_neg hne]

/-- C44 (proved part): a package whose payload is not compressed is reproduced. -/
theorem C44_partial {σ : Type} (menv : MakeEnv) (env : ApplyEnv σ) (o : Opts Bytes) (r : Rpm)
    (h : GoodSingle menv env o r) (hp : r.payload = r.archive) (hz : env.H r.file ≠ zeros 16) :
    ∃ file, drpmMake menv o (some (.ok r)) none = .ok file ∧ drpmMake menv o none (some (.ok r)) = .ok file ∧
      ∀ cleanup, drpmApply env ⟨some (.ok file), true, true, .rpm (.ok r)⟩ cleanup = (.ok (), .written r.file) := by
  obtain ⟨file, h1, h1', h2⟩ := identity_applied menv env o r h
  have hf : r.leadsig ++ r.header ++ r.archive = r.file := by unfold Rpm.file; rw [hp]
  refine ⟨file, h1, h1', fun cleanup => ?_⟩
  obtain ⟨k1, k2⟩ := h2 cleanup
  rw [hf] at k1 k2
  have := k2 hz
  rw [if_pos rfl] at this
  exact Prod.ext this k1

/-- Non-vacuity of C44: a package, compressed or not. -/
def demoSingle (payload : Bytes) : Rpm :=
  { demoNewPkg with payload := payload, sigMd5 := .ok (some (demoLen (demoHeader ++ payload))) }
where
  /-- a stand-in for MD5 -/
  demoLen (b : Bytes) : Bytes := createBe32 b.length ++ zeros 12

def demoSingleMake : MakeEnv := { demoMake with H := demoSingle.demoLen }

def demoSingleApply (payload : Bytes) : ApplyEnv Bytes :=
  { demoApply with
    H := demoSingle.demoLen
    importSig := fun _ => some (.ok (some (demoSingle.demoLen (demoHeader ++ payload)))) }

theorem demo_single (payload : Bytes) :
    GoodSingle demoSingleMake (demoSingleApply payload) (demoOpts true 3 true) (demoSingle payload) := by
  have hs := (demo_pair true true 3 (by omega)).signature
  refine ⟨⟨rfl, fun b => rfl⟩, rfl, rfl, ⟨_, rfl, by decide, by decide⟩, by show 0 < demoHeader.length ∧ demoHeader.length < 2^32; decide,
      ⟨hs.length, hs.magic, hs.inside, hs.counts, _, rfl, Or.inr rfl⟩, rfl, rfl, .gzip, rfl, Or.inl (by show 0 ≤ 9; omega),
      fun _ s => ⟨_, rfl, by simp [demoPack], ⟨_, rfl⟩, rfl⟩⟩

example (cleanup : Nat) : ∃ file,
    drpmMake demoSingleMake (demoOpts true 3 true) (some (.ok (demoSingle demoNewPkg.payload))) none = .ok file ∧
    (drpmApply (demoSingleApply demoNewPkg.payload)
      ⟨some (.ok file), true, true, .rpm (.ok (demoSingle demoNewPkg.payload))⟩ cleanup).1 = .err .mismatch := by
  obtain ⟨file, h1, h2⟩ := C44_violated _ _ _ _ (demo_single demoNewPkg.payload) (by decide +kernel)
  exact ⟨file, h1, (h2 cleanup).2 (by decide +kernel) (by decide +kernel)⟩

example (cleanup : Nat) : ∃ file,
    drpmMake demoSingleMake (demoOpts true 3 true) (some (.ok (demoSingle demoNewPkg.archive))) none = .ok file ∧
    drpmApply (demoSingleApply demoNewPkg.archive)
      ⟨some (.ok file), true, true, .rpm (.ok (demoSingle demoNewPkg.archive))⟩ cleanup =
        (.ok (), .written (demoSingle demoNewPkg.archive).file) := by
  obtain ⟨file, h1, _, h2⟩ := C44_partial _ _ _ _ (demo_single demoNewPkg.archive) rfl (by decide +kernel)
  exact ⟨file, h1, h2 cleanup⟩

end Drpm
