import Verif.Moving
import Verif.Props.SafeInstalled
/-!
# Property C100: installed files that change while a delta is applied

The full statement, that applying is memory-safe and a success means the right package, under every
schedule of changes to the installed files, is false in its first half (`C100_violated`). The second half
holds for every schedule (`C100_verified`), the first one under the conditions of `C83_partial` at every
moment, if a file that looks prelinked stays as it is while a block is fetched (`C100_safe_partial`).
-/

namespace Drpm

variable {σ : Type}

/-! ### Nothing changes -/

theorem turned_id (s : FsSt) : s.turned (fun _ b => b) = s := rfl

theorem movingFiller_still (cfg : CacheCfg) (files : List FileInfo) (places : List CpioFile) (disk : Disk) :
    movingFiller cfg files places (fun _ _ => .still disk) = diskFiller cfg ⟨disk, files, places⟩ := by
  funext c a id cnt
  rfl

theorem planOver_still (env : ApplyEnv σ) (file : Bytes) (d : Delta) (disk : Disk) (files : List FileInfo)
    (places : List CpioFile) (cleanup : Nat) :
    planOver env file d (fun cfg => diskFiller cfg ⟨disk, files, places⟩) cleanup =
      planDiff env file d (.files disk) files places cleanup := rfl

theorem planInstalled_still (env : ApplyEnv σ) (file : Bytes) (db : Db) (disk : Disk) (cleanup : Nat) :
    planInstalled env file db (fun files places cfg => movingFiller cfg files places (fun _ _ => .still disk)) cleanup =
      planApply env file (.installed db disk) cleanup := by
  unfold planInstalled planApply
  cases readDelta env.dec env.rpmHead file with
  | err e => rfl
  | ub => rfl
  | loop => rfl
  | ok d =>
    rw [Out.bind_ok, Out.bind_ok]
    unfold applyOld
    simp only
    split
    · rfl
    · split
      · rfl
      · cases readInstalled db d.srcNevr with
        | err e => rfl
        | ub => rfl
        | loop => rfl
        | ok p =>
          simp only [Out.bind_ok, movingFiller_still, planOver_still]
          have e : ∀ files places, planBody env file d (.files disk) files places cleanup =
              planDiff env file d (.files disk) files places cleanup := by
            intro files places
            unfold planBody
            split
            · rename_i h; cases h
            · rfl
          simp only [e]

/-- C100 (still): if the files stay as they are, this is the `drpm_apply` of the other theorems. -/
theorem C100_still (env : ApplyEnv σ) (file : Bytes) (db : Db) (disk : Disk) (cleanup : Nat) :
    applyMoving env file db (fun _ _ => .still disk) cleanup =
      drpmApply env ⟨some (.ok file), true, true, .installed db disk⟩ cleanup := by
  unfold applyMoving applyAnyhow drpmApply applyTo
  simp only [Out.bind_ok]
  rw [if_neg (by simp), planInstalled_still]
  rfl

/-! ### A success -/

/-- What a success means, wherever the blocks came from. -/
theorem applyAnyhow_verified (env : ApplyEnv σ) (file : Bytes) (db : Db)
    (fill : List FileInfo → List CpioFile → CacheCfg → Filler FsSt) (cleanup : Nat) (left : Left)
    (h : applyAnyhow env file db fill cleanup = (.ok (), left)) :
    ∃ d rest, readDelta env.dec env.rpmHead file = .ok d ∧ left = .written (d.tgtLeadsig ++ rest) ∧
      (d.tgtMd5 ≠ zeros 16 → env.H (d.tgtLeadsig ++ rest) = d.tgtMd5) ∧
      (d.tgtMd5 = zeros 16 → ∀ m, SigMd5 env d.tgtLeadsig (some m) → env.H rest = m) := by
  unfold applyAnyhow at h
  rcases hp : planInstalled env file db fill cleanup with pl | e | _ | _
  · rw [hp] at h
    simp only at h
    unfold planInstalled at hp
    obtain ⟨d, p1, hp⟩ := Out.bind_eq_ok.mp hp
    split at hp
    · cases hp
    · split at hp
      · cases hp
      · obtain ⟨p, p2, hp⟩ := Out.bind_eq_ok.mp hp
        obtain ⟨_, p3, hp⟩ := Out.bind_eq_ok.mp hp
        obtain ⟨⟨files, places⟩, p4, hp⟩ := Out.bind_eq_ok.mp hp
        obtain ⟨sig, p5, hp⟩ := Out.bind_eq_ok.mp hp
        obtain ⟨body, p6, hp⟩ := Out.bind_eq_ok.mp hp
        cases hp
        unfold planOver at p6
        obtain ⟨_, _, p6⟩ := Out.bind_eq_ok.mp p6
        obtain ⟨_, _, p6⟩ := Out.bind_eq_ok.mp p6
        obtain ⟨_, _, p6⟩ := Out.bind_eq_ok.mp p6
        simp only [Out.ok.injEq] at p6
        rcases hb : body with ⟨out, hashed⟩ | e | _ | _
        · simp only [hb, finishApply, Prod.mk.injEq] at h
          obtain ⟨h1, rfl⟩ := h
          rw [hb] at p6
          obtain ⟨rest, q1, q3⟩ := applyWrite_ok p6
          refine ⟨d, rest, p1, by rw [q1], fun hz => ?_, fun hz m hm => ?_⟩
          · unfold finalCheck at h1
            have : noFullMd5 d = false := by simp [noFullMd5, hz]
            rw [this] at h1 q3
            simp only [Bool.false_eq_true, if_false] at h1 q3
            split at h1
            · cases h1
            · rename_i hh
              rw [← q3]
              exact Decidable.of_not_not hh
          · unfold finalCheck at h1
            have : noFullMd5 d = true := by simp [noFullMd5, hz]
            rw [this] at h1 q3
            simp only [if_true, List.nil_append] at h1 q3
            obtain ⟨_, hs⟩ := replaceSig_ok p5
            unfold SigMd5 at hm
            rw [hs] at hm
            cases hm
            rw [Out.bind_ok] at h1
            simp only at h1
            split at h1
            · cases h1
            · rename_i hh
              rw [← q3]
              exact Decidable.of_not_not hh
        · simp [hb, finishApply] at h
        · simp [hb, finishApply] at h
        · simp [hb, finishApply] at h
  · rw [hp] at h; simp at h
  · rw [hp] at h; simp at h
  · rw [hp] at h; simp at h

/-- C100 (verified): whatever happens to the installed files while the delta is applied, in whatever order
    and at whatever moments, a success means that the output file has the MD5 that the delta records; or, if
    it records none, that everything after lead and signature has the MD5 in the signature. More is true:
    the bytes of the old files may come from anywhere. -/
theorem C100_verified (env : ApplyEnv σ) (file : Bytes) (db : Db) (cleanup : Nat) (left : Left) :
    (∀ sight, applyMoving env file db sight cleanup = (.ok (), left) →
      ∃ d rest, readDelta env.dec env.rpmHead file = .ok d ∧ left = .written (d.tgtLeadsig ++ rest) ∧
        (d.tgtMd5 ≠ zeros 16 → env.H (d.tgtLeadsig ++ rest) = d.tgtMd5) ∧
        (d.tgtMd5 = zeros 16 → ∀ m, SigMd5 env d.tgtLeadsig (some m) → env.H rest = m)) ∧
    (∀ fill, applyAnyhow env file db fill cleanup = (.ok (), left) →
      ∃ d rest, readDelta env.dec env.rpmHead file = .ok d ∧ left = .written (d.tgtLeadsig ++ rest) ∧
        (d.tgtMd5 ≠ zeros 16 → env.H (d.tgtLeadsig ++ rest) = d.tgtMd5) ∧
        (d.tgtMd5 = zeros 16 → ∀ m, SigMd5 env d.tgtLeadsig (some m) → env.H rest = m)) :=
  ⟨fun _ h => applyAnyhow_verified env file db _ cleanup left h, fun fill h => applyAnyhow_verified env file db fill cleanup left h⟩

/-- C100 (right): the delta records the MD5 of the new package `new`, and no other file with this MD5 turns
    up. Then a success means that `new` was written, however the installed files changed meanwhile. -/
theorem C100_right (env : ApplyEnv σ) (file : Bytes) (db : Db) (sight : Nat → Nat → Sight) (cleanup : Nat) (left : Left) (new : Bytes)
    (hrec : ∀ d, readDelta env.dec env.rpmHead file = .ok d → d.tgtMd5 = env.H new ∧ d.tgtMd5 ≠ zeros 16)
    (hcol : ∀ b, left = .written b → env.H b = env.H new → b = new)
    (h : applyMoving env file db sight cleanup = (.ok (), left)) : left = .written new := by
  obtain ⟨d, rest, h1, h2, h3, _⟩ := applyAnyhow_verified env file db _ cleanup left h
  obtain ⟨e1, e2⟩ := hrec d h1
  rw [h2, hcol _ h2 (by rw [h3 e2, e1])]

/-! ### Memory safety -/

theorem safeInv_disk {r : FsIn} {n : Nat} {s : FsSt} (disk : Disk) (h : SafeInv r n s) : SafeInv ⟨disk, r.files, r.places⟩ n s :=
  ⟨h.1, h.2.imp id (fun ⟨k, hk⟩ => ⟨k, hk.idx, hk.le, hk.hdr⟩)⟩

theorem safeInv_turned {r : FsIn} {n : Nat} {s : FsSt} (g : Nat → Bytes → Bytes) (h : SafeInv r n s) : SafeInv r n (s.turned g) :=
  ⟨h.1, h.2.imp id (fun ⟨k, hk⟩ => ⟨k, hk.idx, hk.le, hk.hdr⟩)⟩

/-- What the two functions do with a block. -/
def moveOn (cfg : CacheCfg) (r : FsIn) (c : Cache FsSt) (a id cnt : Nat) : FsRes × FsSt → Out (Cache FsSt)
  | (.block b, s) => .ok { c with src := s, heap := upd c.heap a { c.heap a with type := .nopage, id := id, buf := b } }
  | (.prelink k, s) => plBlock cfg r { c with src := s } a id cnt k

theorem movingFiller_eq {files : List FileInfo} {places : List CpioFile} {n : Nat} {cfg : CacheCfg} {sight : Nat → Nat → Sight} {c : Cache FsSt}
    {a id cnt : Nat} (hl : Layout ⟨(sight cnt id).disk, files, places⟩ n)
    (hp : (∃ f ∈ files, IsPre ⟨(sight cnt id).disk, files, places⟩ f) → (sight cnt id).later = (sight cnt id).disk)
    (hs : SafeInv ⟨(sight cnt id).disk, files, places⟩ n (c.src.turned (sight cnt id).behind)) :
    movingFiller cfg files places sight c a id cnt =
      diskFiller cfg ⟨(sight cnt id).disk, files, places⟩ { c with src := c.src.turned (sight cnt id).behind } a id cnt := by
  have hb := fsBlock_good hl hs id
  have e1 : movingFiller cfg files places sight c a id cnt =
      fsBlock ⟨(sight cnt id).disk, files, places⟩ (c.src.turned (sight cnt id).behind) id >>=
        moveOn cfg ⟨(sight cnt id).later, files, places⟩ c a id cnt := by
    unfold movingFiller
    congr 1
    funext ⟨o, s⟩
    cases o <;> rfl
  have e2 : diskFiller cfg ⟨(sight cnt id).disk, files, places⟩ { c with src := c.src.turned (sight cnt id).behind } a id cnt =
      fsBlock ⟨(sight cnt id).disk, files, places⟩ (c.src.turned (sight cnt id).behind) id >>=
        moveOn cfg ⟨(sight cnt id).disk, files, places⟩ c a id cnt := by
    unfold diskFiller
    congr 1
    funext ⟨o, s⟩
    cases o <;> rfl
  rw [e1, e2]
  cases hx : fsBlock ⟨(sight cnt id).disk, files, places⟩ (c.src.turned (sight cnt id).behind) id with
  | err e => rw [Out.bind_err, Out.bind_err]
  | ub => rw [Out.bind_ub, Out.bind_ub]
  | loop => rw [Out.bind_loop, Out.bind_loop]
  | ok x =>
    obtain ⟨o, s⟩ := x
    rw [hx] at hb
    rw [Out.bind_ok, Out.bind_ok]
    cases o with
    | block b => rfl
    | prelink k =>
      have hpre : ∃ f ∈ files, IsPre ⟨(sight cnt id).disk, files, places⟩ f := by
        rcases hb.2 with ⟨b, h, _⟩ | ⟨k, _, i, f, o, off, p1, p2, p3, p4, ⟨j, g, q, q1, q2, q3⟩, _⟩
        · cases h
        · exact ⟨g, List.mem_of_getElem? q2, q3⟩
      rw [hp hpre]

/-- Each block is fetched from the files as they are then. -/
theorem movingFiller_may {files : List FileInfo} {places : List CpioFile} {n : Nat} {cfg : CacheCfg} {sight : Nat → Nat → Sight} (disk0 : Disk)
    (hl : ∀ cnt id, Layout ⟨(sight cnt id).disk, files, places⟩ n)
    (hp : ∀ cnt id, (∃ f ∈ files, IsPre ⟨(sight cnt id).disk, files, places⟩ f) → (sight cnt id).later = (sight cnt id).disk ∧
      PreLayout ⟨(sight cnt id).disk, files, places⟩ n cfg.nblk) :
    FillsMay cfg (SafeInv ⟨disk0, files, places⟩ n) (movingFiller cfg files places sight) := by
  intro c a id cnt hid hinv ha hsrc
  have hsrc' : SafeInv ⟨(sight cnt id).disk, files, places⟩ n (c.src.turned (sight cnt id).behind) :=
    safeInv_turned _ (safeInv_disk (r := ⟨disk0, files, places⟩) _ hsrc)
  have hstep := diskFiller_may (r := ⟨(sight cnt id).disk, files, places⟩) (hl cnt id) (fun h => (hp cnt id h).2)
    { c with src := c.src.turned (sight cnt id).behind } a id cnt hid hinv ha hsrc'
  have heq := movingFiller_eq (cfg := cfg) (a := a) (cnt := cnt) (hl cnt id) (fun h => (hp cnt id h).1) hsrc'
  rw [heq]
  refine hstep.mono ?_
  rintro c' ⟨f1, f2, f3, f4, f5, f6⟩
  exact ⟨f1, f2, f3, f4, f5, safeInv_disk (r := ⟨(sight cnt id).disk, files, places⟩) disk0 f6⟩

/-- A call that is safe if the reconstruction is (`applied_good` for `applyAnyhow`). -/
theorem applyAnyhow_good (env : ApplyEnv σ) (file : Bytes) (db : Db) (fill : List FileInfo → List CpioFile → CacheCfg → Filler FsSt)
    (cleanup : Nat) (he : SoundEnv env) (hf : CarefulFile env.dec env.rpmHead file)
    (hrest : ∀ d p, readDelta env.dec env.rpmHead file = .ok d → d.type = .standard → (∃ n e v r, db n e v r = some p) →
      p.nevr.Defined ∧ CarefulParts env d ∧
      (applyPlaces env d p).Good (fun x => ∀ cfg add, blocksCreate d.extDataLen d.exts = .ok cfg → d.extDataLen < 2^64 →
        CopiesInside d.extDataLen 0 d.exts → EndsPositive 0 d.exts → (d.ints.map (·.2)).sum ≤ d.intBytes.length →
        (reconWrites (blocksNext cfg (fill x.1 x.2 cfg)) (emptyCache FsSt.init cleanup) (Option.isSome add) d.exts d.ints d.intBytes
          (add.getD [])).Good (fun ws => ws.flatten.length = producedBytes d.ints d.exts))) :
    (applyAnyhow env file db fill cleanup).1.Defined := by
  have hplan : (planInstalled env file db fill cleanup).Good (fun pl => pl.sig.Defined ∧ pl.body.Good (fun _ => True)) := by
    unfold planInstalled
    refine (C10_partial env.dec env.rpmHead file (he.rpmHead _) hf.name hf.counts).good.bind ?_
    intro d hd1
    have hacc : d.extDataLen < 2^64 ∧ ((d.extDataLen < 2^64 - 2^32) → CopiesInside d.extDataLen 0 d.exts ∧ EndsPositive 0 d.exts) ∧
        (d.ints.map (·.2)).sum ≤ d.intBytes.length := by
      obtain ⟨d0, s, rr, g1, _, g3⟩ := readDelta_inv _ _ _ _ hd1
      obtain ⟨_, _, _, _, w1, w2, _, _, _, h4, h5, k2, c1, c2⟩ := rdRest_post d0 s d rr g1
      have hs : s.length < 2^63 := by
        rcases g3 with ⟨k, rfl⟩ | ⟨c, z, rfl⟩
        · rw [List.length_drop]; have := hf.small; omega
        · exact he.dec c z
      have := intCheck_true _ 0 d.ints (by omega) (by omega) (fun c hc => (w1 c hc).2) c1
      exact ⟨k2, fun h => (extCheck_inside _ 0 d.exts h (by omega) (fun c hc => (w2 c hc).2)).1 c2, by omega⟩
    obtain ⟨hext, hins, hint⟩ := hacc
    obtain ⟨h16, h16', h112, _⟩ := readDelta_shape hd1
    refine Out.Good.ite (fun _ => trivial) (fun ht => Out.Good.ite (fun _ => trivial) (fun _ => ?_))
    have hty : d.type = .standard := by
      cases h : d.type with
      | standard => rfl
      | rpmonly => exact absurd h ht
    have hrd : (readInstalled db d.srcNevr).Good (fun p => ∃ n e v r, db n e v r = some p) := by
      unfold readInstalled
      refine (splitNevr_defined _).bind ?_
      rintro ⟨n, e, v, r⟩ _
      simp only
      cases h : db n e v r with
      | none => trivial
      | some p => exact ⟨n, e, v, r, h⟩
    refine hrd.bind ?_
    intro p hP
    obtain ⟨hnevr, hdl, hpl⟩ := hrest d p hd1 hty hP
    refine Out.Good.bind (P := fun _ => True) ?_ (fun _ _ => ?_)
    · unfold sameNevr
      exact hnevr.good.bind (fun _ _ => Out.Good.ite (fun _ => trivial) (fun _ => trivial))
    refine hpl.bind ?_
    rintro ⟨files, places⟩ hplc
    simp only at hplc ⊢
    refine (replaceSig_good he h112 hdl.signature).bind ?_
    intro sig hsig
    refine Out.Good.bind (P := fun b => b.Good (fun _ => True)) ?_ (fun b hb => ⟨hsig, hb⟩)
    unfold planOver
    have hcf : countsFit d = .ok () := by
      obtain ⟨i1, i2⟩ := C51_partial _ _ _ _ hd1
      unfold countsFit
      rw [if_pos ⟨(i1 hdl.counts.1).symm, (i2 hdl.counts.2).symm⟩]
    rw [hcf, Out.bind_ok]
    have hcr : (blocksCreate d.extDataLen d.exts).Good (fun cfg => blocksCreate d.extDataLen d.exts = .ok cfg ∧
        CopiesInside d.extDataLen 0 d.exts ∧ EndsPositive 0 d.exts) := by
      unfold blocksCreate
      refine Out.Good.ite (fun _ => trivial) (fun hno => ?_)
      have hbs : blockSize = 8192 := rfl
      have hpos : 0 < d.extDataLen := by
        rcases Nat.eq_zero_or_pos d.extDataLen with h | h
        · rw [h] at hno; exact absurd (by decide) hno
        · exact h
      have hnb : blocksOf d.extDataLen = (d.extDataLen - 1) / blockSize + 1 := blocksOf_pos hpos hext
      rw [hbs] at hnb
      obtain ⟨hc, hen⟩ := hins (by omega)
      obtain ⟨mx, hm1, _⟩ := markCopies_spec d.extDataLen (by omega) hpos d.exts 0 0 (fun _ => 0) hc hen (fun _ => Nat.le_refl _)
      rw [hm1]
      simp only [Out.bind_ok]
      refine ⟨?_, hc, hen⟩
      rw [if_neg hno]
    refine hcr.bind ?_
    rintro cfg ⟨hcfg, hc, hen⟩
    refine (openAdd_good env.dec d.addData).bind ?_
    intro add _
    show (applyWrite env file d _).Good _
    have hws := hplc cfg add hcfg hext hc hen hint
    unfold applyWrite
    refine Out.Good.bind (P := fun _ => True) ?_ (fun _ _ => ?_)
    · unfold applyHeader
      exact Out.Good.ite (fun _ => trivial) (fun _ => (he.tgtHeader file).good.mono (fun _ _ => trivial))
    refine (strmOpen_good (by have := hdl.level; omega)).bind ?_
    intro _ _
    refine hws.bind ?_
    intro ws hlen
    refine Out.Good.bind (P := fun _ => True) ?_ (fun _ _ => trivial)
    have hh := hdl.header
    unfold compressNew
    exact Out.Good.ite (fun _ => wrAll_good _ _ _ _ (by omega)) (fun _ => wrAll_good _ _ _ _ (by omega))
  unfold applyAnyhow
  cases hx : planInstalled env file db fill cleanup with
  | ok pl =>
    rw [hx] at hplan
    obtain ⟨h1, h2⟩ := hplan
    simp only
    cases hb : pl.body with
    | ok x =>
      unfold finishApply finalCheck
      simp only
      have : (if noFullMd5 pl.d = true then pl.sig >>= fun m => match m with
            | none => Out.ok ()
            | some m => if env.H x.2 ≠ m then .err .mismatch else .ok ()
          else if env.H x.2 ≠ pl.d.tgtMd5 then .err .mismatch else .ok ()).Good (fun _ => True) := by
        refine Out.Good.ite (fun _ => h1.good.bind ?_) (fun _ => Out.Good.ite (fun _ => trivial) (fun _ => trivial))
        intro m _
        cases m with
        | none => trivial
        | some m => exact Out.Good.ite (fun _ => trivial) (fun _ => trivial)
      exact this.defined
    | err e => exact Out.defined_err e
    | ub => rw [hb] at h2; exact absurd h2 id
    | loop => rw [hb] at h2; exact absurd h2 id
  | err e => exact Out.defined_err e
  | ub => rw [hx] at hplan; exact absurd hplan id
  | loop => rw [hx] at hplan; exact absurd hplan id

/-- C100 (safe, partial): applying a delta to installed files never reads or writes outside a buffer and
    never hangs, whatever happens to the files between two blocks: each may be replaced, cut short, extended
    or removed, before it is opened and afterwards, any number of times. The conditions are those of
    `C83_partial` at every moment; in addition, while a block is fetched and some file looks prelinked, the
    files stay as they are. Missing: this last condition, which is necessary (`C100_violated`); changes
    between two system calls on the same file while one block is fetched. -/
theorem C100_safe_partial (env : ApplyEnv σ) (file : Bytes) (db : Db) (sight : Nat → Nat → Sight) (cleanup : Nat) (he : SoundEnv env)
    (hf : CarefulFile env.dec env.rpmHead file) (hp : ∀ cnt id n e v r p, db n e v r = some p → CarefulInstalled (sight cnt id).disk p)
    (hd : ∀ d, readDelta env.dec env.rpmHead file = .ok d → CarefulParts env d)
    (ho : ∀ d n e v r p, readDelta env.dec env.rpmHead file = .ok d → db n e v r = some p → CarefulOrder p d)
    (hpre : ∀ cnt id d n e v r p fs, readDelta env.dec env.rpmHead file = .ok d → db n e v r = some p → p.files = .ok fs →
      (∃ f ∈ fs, LooksPrelinked (sight cnt id).disk f) →
      (sight cnt id).later = (sight cnt id).disk ∧ CarefulPrelink (sight cnt id).disk fs d) :
    (applyMoving env file db sight cleanup).1.Defined := by
  refine applyAnyhow_good env file db _ cleanup he hf ?_
  rintro d p hd1 hty ⟨n, e, v, r, hdb⟩
  have hpk := fun cnt id => hp cnt id n e v r p hdb
  have hor := ho d n e v r p hd1 hdb
  refine ⟨(hpk 0 0).nevr, hd d hd1, ?_⟩
  have hpl : (applyPlaces env d p).Good (fun x => ∃ n, ∀ cnt id, Layout ⟨(sight cnt id).disk, x.1, x.2⟩ n ∧
      ((∃ f ∈ x.1, IsPre ⟨(sight cnt id).disk, x.1, x.2⟩ f) → (sight cnt id).later = (sight cnt id).disk ∧
        ∀ nblk, (∀ j, 8192 * j < d.extDataLen → j < nblk) → PreLayout ⟨(sight cnt id).disk, x.1, x.2⟩ n nblk)) := by
    unfold applyPlaces
    rw [if_neg (by rw [hty]; decide)]
    refine (hpk 0 0).files.good.bind ?_
    intro fs hfs
    refine (hpk 0 0).algo.good.bind ?_
    intro algo _
    obtain ⟨hc, hl⟩ := (hpk 0 0).listed fs hfs
    have hex := expandSeq_good (H := env.H) (algo := algo) [] (fun f hf => ⟨(hl f hf).1, (hl f hf).2.name⟩)
      ((hor.order fs hfs).good.mono (fun _ h => h.1))
    refine Out.Good.bind (P := fun places => expandSeq env.H fs algo noCheck d.sequence = .ok places) hex.defined.good ?_
    intro places hplc
    have hlay := fun cnt id => layout_of (d := d) rfl hplc hc (fun f hf => (hl f hf).2) ((hpk cnt id).onDisk fs hfs)
        (fun ps h => ((C17_accepts _ _ (hor.order fs hfs).short ps).mp h).2.1) (hor.opened fs hfs)
        (fun h => (hpre cnt id d n e v r p fs hd1 hdb hfs h).2)
    refine ⟨places.length - 1, fun cnt id => ?_⟩
    obtain ⟨m, h1, h2⟩ := hlay cnt id
    have hm : places.length - 1 = m := by have := h1.length; simp only at this; omega
    rw [hm]
    refine ⟨h1, fun hi => ⟨?_, fun nblk hn => h2 nblk hn hi⟩⟩
    obtain ⟨f, hf, data, h3, h4⟩ := hi
    obtain ⟨b, h5, h6⟩ := checkable_answer ((hpk cnt id).onDisk fs hfs f hf data h3)
    rw [h5] at h4
    cases h4
    exact (hpre cnt id d n e v r p fs hd1 hdb hfs ⟨f, hf, data, h3, h6 rfl⟩).1
  refine hpl.mono ?_
  rintro ⟨files, places⟩ ⟨m, hall⟩ cfg add hcfg hext hc hen hint
  refine reconWrites_may (SafeInv.init _ m) (movingFiller_may (sight 0 0).disk (fun cnt id => (hall cnt id).1) (fun cnt id h =>
    ⟨((hall cnt id).2 h).1, ((hall cnt id).2 h).2 cfg.nblk ?_⟩)) hcfg hext hc hen cleanup _ _ _ _ hint
  intro j hj
  unfold blocksCreate at hcfg
  split at hcfg
  · cases hcfg
  · obtain ⟨mx, _, h⟩ := Out.bind_eq_ok.mp hcfg
    cases h
    show j < blocksOf d.extDataLen
    unfold blocksOf
    rw [show blockSize = 8192 from rfl]
    omega

/-! ### Examples and counterexamples -/

/-- Like `instFile`, with the digest `seq` of the file list, the MD5 `md5` of the new package, and `n` bytes
    of the old files from offset `off` on. -/
def moveFile (seq order md5 : Bytes) (off n extLen : Nat) : Bytes :=
  [0xED, 0xAB, 0xEE, 0xDB] ++ ([68, 76, 84, 51] ++ (createBe32 5 ++ [97, 45, 49, 45, 49] ++
  createBe32 (16 + order.length) ++ seq ++ order ++ md5 ++
  createBe32 100 ++ createBe32 0 ++ createBe32 0 ++ createBe32 0 ++ createBe32 0 ++
  createBe32 (safeLeadsig 4 4).length ++ safeLeadsig 4 4 ++ createBe32 0 ++ createBe32 1 ++
  createBe32 1 ++ [1, 2, off, n].flatMap createBe32 ++ createBe64 extLen ++ createBe32 0 ++ createBe64 2 ++ [7, 8]))

/-- A digest that tells the examples apart. -/
def movedH (b : Bytes) : Bytes := List.replicate 16 (b.foldl (· + ·) 1)

def movedEnv : ApplyEnv Bytes := { instEnv with H := movedH }

/-- The new package of the examples: bytes 100 to 129 of the old archive and two bytes more. -/
def movedNew : Bytes := safeLeadsig 4 4 ++ [48, 52, 48, 48, 48, 48, 48, 48, 48, 48, 46, 47, 97, 0, 0, 0, 65, 0, 0, 0, 48, 55, 48, 55,
  48, 49, 48, 48, 48, 48, 7, 8]

/-- A delta that records the digest of the new package. -/
def movedDelta : Bytes := moveFile (List.replicate 16 80) [32] (movedH movedNew) 100 30 300

/-- The second file has been overwritten. -/
def changedDisk : Disk := diskOf [([47, 97], [65]), ([47, 98], [99])]

/-- Non-vacuity of `C100_verified` and `C100_right`: a call that succeeds although the second file, of which
    no byte is needed, was overwritten meanwhile and all files vanish afterwards; and one that fails, because
    the first file was overwritten by one of the same length. -/
theorem C100_example :
    applyMoving movedEnv movedDelta (instDb twoFiles) (fun _ id => if id = 0 then .still changedDisk else ⟨diskOf [], diskOf [], fun _ _ => []⟩) 0 =
      (.ok (), .written movedNew) ∧
    (applyMoving movedEnv movedDelta (instDb twoFiles) (fun _ _ => .still (diskOf [([47, 97], [67]), ([47, 98], [66])])) 0).1 = .err .mismatch := by
  decide +kernel

example : (Left.written movedNew) = .written movedNew :=
  C100_right movedEnv movedDelta (instDb twoFiles) (fun _ id => if id = 0 then .still changedDisk else ⟨diskOf [], diskOf [], fun _ _ => []⟩) 0
    (.written movedNew) movedNew (by
      intro d hd
      have : Out.okAnd (readDelta movedEnv.dec movedEnv.rpmHead movedDelta) (fun d => decide (
        d.tgtMd5 = movedEnv.H movedNew ∧ d.tgtMd5 ≠ zeros 16)) = true := by decide +kernel
      rw [hd] at this
      simpa [Out.okAnd] using this) (fun b h _ => by cases h; rfl) C100_example.1

/-- Non-vacuity of `C100_safe_partial`: two files that are replaced by any short ones, at any moments, before
    and after they are opened. -/
example (l : Nat → Nat → List (Bytes × Bytes)) (hl : ∀ cnt id, ∀ x ∈ l cnt id, x.2.length ≤ 100 ∧ ¬ IsElf x.2) (later : Nat → Nat → Disk)
    (behind : Nat → Nat → Nat → Bytes → Bytes) :
    (applyMoving instEnv (instFile [32] 130 300) (instDb twoFiles) (fun cnt id => ⟨diskOf (l cnt id), later cnt id, behind cnt id⟩) 0).1.Defined :=
  C100_safe_partial instEnv _ _ _ 0 inst_env inst_file (fun cnt id n e v r p h => inst_pkg (hl cnt id) h)
    (fun d hd => (inst_parts d hd).1) (fun d _ _ _ _ _ hd h => inst_order d hd h) (by
      rintro cnt id d n e v r p fs hd h hfs ⟨f, _, data, h1, _, h2⟩
      exact absurd h2.1 (hl cnt id _ (diskOf_mem h1)).2)

/-- C100 is violated: the old package has one file of 20000 bytes, the delta needs ten bytes of its middle.
    When the block with these bytes is fetched, prelink has changed the file; before it is opened for the
    second time, that has been undone, and the file is as the package has it. Then a variable is used that
    was never set (src/drpm_block.c:1190). -/
theorem C100_violated :
    (applyMoving instEnv (moveFile (zeros 16) [16] (zeros 16) 9000 10 20300) (instDb [demoFile [47, 98] 0o100755 20000 []])
      (fun _ _ => ⟨diskOf [([47, 98], undoElf true)], diskOf [([47, 98], zeros 20000)], fun _ b => b⟩) 0).1 = .ub := by
  decide +kernel

/-- Had it been undone a moment earlier, or not at all, all would be well. -/
theorem C100_example_race :
    (applyMoving instEnv (moveFile (zeros 16) [16] (zeros 16) 9000 10 20300) (instDb [demoFile [47, 98] 0o100755 20000 []])
      (fun _ _ => .still (diskOf [([47, 98], zeros 20000)])) 0).1 = .ok () ∧
    (applyMoving instEnv (moveFile (zeros 16) [16] (zeros 16) 9000 10 20300) (instDb [demoFile [47, 98] 0o100755 20000 []])
      (fun _ _ => .still ⟨(diskOf [([47, 98], undoElf true)]).get, fun _ => .ok (zeros 20000)⟩) 0).1 = .ok () := by
  decide +kernel

end Drpm
