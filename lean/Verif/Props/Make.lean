import Verif.Props.Apply
/-!
# What `drpm_make` refuses (C69) and what `drpm_apply` refuses (C70)
-/

namespace Drpm

/-- The package a delta is for: the new one, or the only one. -/
def targetOf : Option (Out Rpm) → Option (Out Rpm) → Option (Out Rpm)
  | old, none => old
  | _, some new => some new

/-- C69 (refused): `drpm_make` without packages, and rpm-only deltas in a version before 3, are
    `DRPM_ERR_ARGS`; a package that cannot be read is reported with the error of reading it, the old
    one first; a payload that is not a CPIO archive is `DRPM_ERR_FORMAT` (rpm-only deltas of a package
    to itself do not look at the payload). -/
theorem C69_refused (env : MakeEnv) (o : Opts Bytes) :
    drpmMake env o none none = .err .args ∧
    (∀ old new, o.rpmOnly = true → o.version < 3 → drpmMake env o old new = .err .args) ∧
    ((o.rpmOnly = true → 3 ≤ o.version) →
      (∀ e new, drpmMake env o (some (.err e)) new = .err e) ∧
      (∀ e, drpmMake env o none (some (.err e)) = .err e) ∧
      (∀ e old, drpmMake env o (some (.ok old)) (some (.err e)) = .err e) ∧
      (∀ old new, new.isCpio = .ok false → drpmMake env o (some (.ok old)) (some (.ok new)) = .err .format) ∧
      (∀ r, o.rpmOnly = false → r.isCpio = .ok false →
        drpmMake env o (some (.ok r)) none = .err .format ∧ drpmMake env o none (some (.ok r)) = .err .format)) := by
  refine ⟨rfl, fun old new h1 h2 => ?_, fun hv => ?_⟩
  · unfold drpmMake
    split
    · rfl
    · rw [if_pos ⟨h1, h2⟩]
  · have hv' : ¬ (o.rpmOnly = true ∧ o.version < 3) := fun h => by have := hv h.1; omega
    have hp : ∀ a b : Rpm, b.isCpio = .ok false → makePair env o a b = .err .format := by
      intro a b hb
      unfold makePair requireCpio
      rw [hb]
      rfl
    refine ⟨fun e new => ?_, fun e => ?_, fun e old => ?_, fun old new hc => ?_, fun r hr hc => ⟨?_, ?_⟩⟩
    · unfold drpmMake
      rw [if_neg (by simp), if_neg hv']
      cases new <;> rfl
    · unfold drpmMake
      rw [if_neg (by simp), if_neg hv']
      rfl
    · unfold drpmMake
      rw [if_neg (by simp), if_neg hv']
      rfl
    · unfold drpmMake
      rw [if_neg (by simp), if_neg hv']
      simp only [makeAny, Out.bind_ok]
      rw [hp old new hc]
      rfl
    · unfold drpmMake
      rw [if_neg (by simp), if_neg hv']
      simp only [makeAny, Out.bind_ok]
      rw [if_neg (by rw [hr]; decide), hp r r hc]
      rfl
    · unfold drpmMake
      rw [if_neg (by simp), if_neg hv']
      simp only [makeAny, Out.bind_ok]
      rw [if_neg (by rw [hr]; decide), hp r r hc]
      rfl

theorem makePair_ok {env : MakeEnv} {o : Opts Bytes} {a b : Rpm} {x : Delta × Bytes × Nat} (h : makePair env o a b = .ok x) :
    b.isCpio = .ok true ∧ (∃ l, b.level = .ok l) ∧ ∃ n, a.nevr = .ok n := by
  unfold makePair at h
  obtain ⟨_, h1, h⟩ := Out.bind_eq_ok.1 h
  obtain ⟨l, h2, h⟩ := Out.bind_eq_ok.1 h
  obtain ⟨n, h3, _⟩ := Out.bind_eq_ok.1 h
  refine ⟨?_, ⟨l, h2⟩, n, h3⟩
  unfold requireCpio at h1
  obtain ⟨c, h1, h4⟩ := Out.bind_eq_ok.1 h1
  cases c with
  | true => exact h1
  | false => cases h4

/-- C69 (made): whenever `drpm_make` succeeds, the packages that were named could be read, an rpm-only
    delta has version 3 or later, and, unless it is the rpm-only delta of a package to itself, the
    target has a CPIO payload and a compression level. -/
theorem C69_made (env : MakeEnv) (o : Opts Bytes) (old new : Option (Out Rpm)) (file : Bytes) (h : drpmMake env o old new = .ok file) :
    (o.rpmOnly = true → 3 ≤ o.version) ∧ (∀ r, old = some r → ∃ p, r = .ok p) ∧ (∀ r, new = some r → ∃ p, r = .ok p) ∧
    ∃ t, targetOf old new = some (.ok t) ∧
      (¬ (o.rpmOnly = true ∧ (old = none ∨ new = none)) → t.isCpio = .ok true ∧ ∃ l, t.level = .ok l) := by
  unfold drpmMake at h
  split at h
  · cases h
  split at h
  · cases h
  rename_i h1 h2
  obtain ⟨x, hx, _⟩ := Out.bind_eq_ok.1 h
  refine ⟨fun hr => ?_, ?_⟩
  · by_cases hv : o.version < 3
    · exact absurd ⟨hr, hv⟩ h2
    · omega
  cases old with
  | none =>
    cases new with
    | none => exact absurd ⟨rfl, rfl⟩ h1
    | some r =>
      simp only [makeAny] at hx
      obtain ⟨p, hp, hx⟩ := Out.bind_eq_ok.1 hx
      subst hp
      refine ⟨(fun r hr => by cases hr), (fun r hr => by cases hr; exact ⟨p, rfl⟩), p, rfl, fun hn => ?_⟩
      split at hx
      · rename_i hr
        exact absurd ⟨hr, Or.inl rfl⟩ hn
      · exact ⟨(makePair_ok hx).1, (makePair_ok hx).2.1⟩
  | some q =>
    cases new with
    | none =>
      simp only [makeAny] at hx
      obtain ⟨p, hp, hx⟩ := Out.bind_eq_ok.1 hx
      subst hp
      refine ⟨(fun r hr => by cases hr; exact ⟨p, rfl⟩), (fun r hr => by cases hr), p, rfl, fun hn => ?_⟩
      split at hx
      · rename_i hr
        exact absurd ⟨hr, Or.inr rfl⟩ hn
      · exact ⟨(makePair_ok hx).1, (makePair_ok hx).2.1⟩
    | some r =>
      simp only [makeAny] at hx
      obtain ⟨a, ha, hy⟩ := Out.bind_eq_ok.1 hx
      obtain ⟨b, hb, hz⟩ := Out.bind_eq_ok.1 hy
      subst ha hb
      exact ⟨(fun r hr => by cases hr; exact ⟨a, rfl⟩), (fun r hr => by cases hr; exact ⟨b, rfl⟩), b, rfl,
        fun _ => ⟨(makePair_ok hz).1, (makePair_ok hz).2.1⟩⟩

/-- Non-vacuity of C69: a call that succeeds, and packages that are refused. -/
example : ∃ file, drpmMake demoMake (demoOpts false 2 true) (some (.ok demoOldPkg)) (some (.ok demoNewPkg)) = .ok file := by
  obtain ⟨file, h, _⟩ := C48_demo_standard true 2 (by omega)
  exact ⟨file, h⟩

example : drpmMake demoMake (demoOpts true 3 true) (some (.ok demoOldPkg)) (some (.ok { demoNewPkg with isCpio := .ok false })) = .err .format :=
  ((C69_refused demoMake (demoOpts true 3 true)).2.2 (fun _ => Nat.le_refl 3)).2.2.2.1 _ _ rfl

/-! ## C70 -/

theorem readDelta_shape {dec : Decoder} {rpmR : Bytes → Out (Nat × Nat)} {file : Bytes} {d : Delta}
    (h : readDelta dec rpmR file = .ok d) :
    16 ≤ d.sequence.length ∧ (d.type = .rpmonly → d.sequence.length = 16) ∧ 112 ≤ d.tgtLeadsig.length ∧
      (d.type = .rpmonly → d.tgtHeaderLen ≠ 0) := by
  obtain ⟨d0, s, r, h1, _, _⟩ := readDelta_inv dec rpmR file d h
  obtain ⟨_, _, h3, _, _, _, _, _, _, _, _, _, _, _, h4, h5, h6, h7⟩ := rdRest_full d0 s d r h1
  exact ⟨h4, fun ht => h5 (by rw [← h3]; exact ht), h6, fun ht => h7 (by rw [← h3]; exact ht)⟩

/-- What a call of `drpm_apply` returns, for a delta file with these contents and an output file that
    can be created. -/
def applied {σ : Type} (env : ApplyEnv σ) (file : Bytes) (src : OldSrc) (cleanup : Nat) : Out Unit :=
  (drpmApply env ⟨some (.ok file), true, true, src⟩ cleanup).1

theorem applied_err {σ : Type} {env : ApplyEnv σ} {file : Bytes} {src : OldSrc} {cleanup : Nat} {e : Err}
    (h : planApply env file src cleanup = .err e) : applied env file src cleanup = .err e := by
  unfold applied drpmApply applyTo
  simp only [Out.bind_ok]
  rw [if_neg (by simp), h]

/-- C70 (refused): a delta is applied to the package it was made from only. An old package that cannot
    be read is reported with the error of reading it. For an rpm-only delta the package must have a
    signature MD5 (`DRPM_ERR_FORMAT`), equal to the one in the delta (`DRPM_ERR_MISMATCH`); for every
    delta the package must have the name, epoch, version and release in the delta
    (`DRPM_ERR_MISMATCH`). Without an old package, rpm-only deltas and deltas of source packages are
    refused (`DRPM_ERR_ARGS`), and so are packages that are not installed (`DRPM_ERR_NOINSTALL`). -/
theorem C70_refused {σ : Type} (env : ApplyEnv σ) (file : Bytes) (d : Delta) (cleanup : Nat)
    (hd : readDelta env.dec env.rpmHead file = .ok d) :
    (∀ e, applied env file (.rpm (.err e)) cleanup = .err e) ∧
    (∀ r, d.type = .rpmonly → r.sigMd5 = .ok none → applied env file (.rpm (.ok r)) cleanup = .err .format) ∧
    (∀ r m, d.type = .rpmonly → r.sigMd5 = .ok (some m) → m ≠ d.sequence →
      applied env file (.rpm (.ok r)) cleanup = .err .mismatch) ∧
    (∀ r n, (d.type = .rpmonly → r.sigMd5 = .ok (some d.sequence)) → r.nevr = .ok n → n ≠ d.srcNevr →
      applied env file (.rpm (.ok r)) cleanup = .err .mismatch) ∧
    (∀ db disk, d.type = .rpmonly ∨ env.tgtSource file = true → applied env file (.installed db disk) cleanup = .err .args) ∧
    (∀ db disk n e v r, d.type = .standard → env.tgtSource file = false → splitNevr d.srcNevr = .ok (n, e, v, r) →
      db n e v r = none → applied env file (.installed db disk) cleanup = .err .noinstall) ∧
    (∀ db disk n e v r p nevr, d.type = .standard → env.tgtSource file = false →
      splitNevr d.srcNevr = .ok (n, e, v, r) → db n e v r = some p → p.nevr = .ok nevr → nevr ≠ d.srcNevr →
      applied env file (.installed db disk) cleanup = .err .mismatch) := by
  obtain ⟨_, h16, _, _⟩ := readDelta_shape hd
  have hblk : d.type = .rpmonly → rdBlk d.sequence 0 16 = .ok d.sequence := by
    intro ht
    rw [rdBlk_ok (by have := h16 ht; omega), slice, List.drop_zero, List.take_of_length_le (by have := h16 ht; omega)]
  have key : ∀ src e, (applyOld env file d src >>= fun x => sameNevr d.srcNevr x.1 >>= fun _ => Out.ok x) = .err e →
      applied env file src cleanup = .err e := by
    intro src e h
    apply applied_err
    unfold planApply
    rw [hd, Out.bind_ok]
    cases h1 : applyOld env file d src with
    | ok x =>
      rw [h1, Out.bind_ok] at h
      rw [Out.bind_ok]
      cases h2 : sameNevr d.srcNevr x.1 with
      | ok u => rw [h2] at h; cases h
      | err e' =>
        rw [h2] at h
        cases h
        simp only [Out.bind_err, h2]
      | ub => rw [h2] at h; cases h
      | loop => rw [h2] at h; cases h
    | err e' => rw [h1] at h; cases h; rfl
    | ub => rw [h1] at h; cases h
    | loop => rw [h1] at h; cases h
  refine ⟨fun e => key _ _ rfl, fun r ht hm => key _ _ ?_, fun r m ht hm hne => key _ _ ?_, fun r n hs hn hne => key _ _ ?_,
    fun db disk h => key _ _ ?_, fun db disk n e v r ht hs hsp hdb => key _ _ ?_,
    fun db disk n e v r p nevr ht hs hsp hdb hn hne => key _ _ ?_⟩
  · simp only [applyOld, Out.bind_ok, sameSource]
    rw [if_pos ht, hm]
    rfl
  · simp only [applyOld, Out.bind_ok, sameSource]
    rw [if_pos ht, hm]
    simp only [Out.bind_ok]
    rw [hblk ht, Out.bind_ok, if_pos (fun h => hne h.symm)]
    rfl
  · have h1 : sameSource d r = .ok () := by
      unfold sameSource
      split
      · rename_i ht
        rw [hs ht]
        simp only [Out.bind_ok]
        rw [hblk ht, Out.bind_ok, if_neg (by simp)]
      · rfl
    simp only [applyOld, Out.bind_ok, h1, sameNevr]
    rw [hn, Out.bind_ok, if_pos (fun h => hne h.symm)]
    rfl
  · rcases h with h | h
    · simp only [applyOld]
      rw [if_pos h]
      rfl
    · simp only [applyOld]
      split
      · rfl
      · rfl
  · simp only [applyOld]
    rw [if_neg (by rw [ht]; decide), if_neg (by rw [hs]; decide)]
    unfold readInstalled
    rw [hsp, Out.bind_ok]
    simp only
    rw [hdb]
    rfl
  · simp only [applyOld]
    rw [if_neg (by rw [ht]; decide), if_neg (by rw [hs]; decide)]
    unfold readInstalled
    rw [hsp, Out.bind_ok]
    simp only
    rw [hdb]
    simp only [Out.bind_ok, sameNevr]
    rw [hn, Out.bind_ok, if_pos (fun h => hne h.symm)]
    rfl

/-- What the old data must be for a delta to be applied to it. -/
def RightSource {σ : Type} (env : ApplyEnv σ) (file : Bytes) (d : Delta) : OldSrc → Prop
  | .rpm r => ∃ p, r = .ok p ∧ p.nevr = .ok d.srcNevr ∧ (d.type = .rpmonly → p.sigMd5 = .ok (some d.sequence))
  | .installed db _ => d.type = .standard ∧ env.tgtSource file = false ∧
      ∃ n e v r p, splitNevr d.srcNevr = .ok (n, e, v, r) ∧ db n e v r = some p ∧ p.nevr = .ok d.srcNevr

/-- C70 (applied): whenever `drpm_apply` succeeds, the delta could be read and the old package is the
    one the delta was made from: same name, epoch, version and release, and for an rpm-only delta the
    same signature MD5; a delta applied to installed files is a standard delta of a binary package. -/
theorem C70_applied {σ : Type} (env : ApplyEnv σ) (file : Bytes) (src : OldSrc) (cleanup : Nat)
    (h : applied env file src cleanup = .ok ()) :
    ∃ d, readDelta env.dec env.rpmHead file = .ok d ∧ RightSource env file d src := by
  unfold applied drpmApply applyTo at h
  simp only [Out.bind_ok] at h
  rw [if_neg (by simp)] at h
  cases hp : planApply env file src cleanup with
  | err e => rw [hp] at h; cases h
  | ub => rw [hp] at h; cases h
  | loop => rw [hp] at h; cases h
  | ok pl =>
    unfold planApply at hp
    obtain ⟨d, hd, hp⟩ := Out.bind_eq_ok.1 hp
    obtain ⟨⟨p, old⟩, ho, hp⟩ := Out.bind_eq_ok.1 hp
    obtain ⟨_, hn, _⟩ := Out.bind_eq_ok.1 hp
    refine ⟨d, hd, ?_⟩
    have hnevr : p.nevr = .ok d.srcNevr := by
      unfold sameNevr at hn
      obtain ⟨n, h1, h2⟩ := Out.bind_eq_ok.1 hn
      rw [h1]
      split at h2
      · cases h2
      · rename_i hne
        rw [Classical.byContradiction hne]
    obtain ⟨_, h16, _, _⟩ := readDelta_shape hd
    cases src with
    | rpm r =>
      simp only [applyOld] at ho
      obtain ⟨q, hq, ho⟩ := Out.bind_eq_ok.1 ho
      obtain ⟨_, hs, ho⟩ := Out.bind_eq_ok.1 ho
      cases ho
      refine ⟨q, hq, hnevr, fun ht => ?_⟩
      unfold sameSource at hs
      rw [if_pos ht] at hs
      obtain ⟨m, hm, hs⟩ := Out.bind_eq_ok.1 hs
      rw [hm]
      cases m with
      | none => cases hs
      | some m =>
        simp only at hs
        rw [rdBlk_ok (by have := h16 ht; omega), slice, List.drop_zero,
          List.take_of_length_le (by have := h16 ht; omega), Out.bind_ok] at hs
        split at hs
        · cases hs
        · rename_i hne
          rw [Classical.byContradiction hne]
    | installed db disk =>
      simp only [applyOld] at ho
      split at ho
      · cases ho
      split at ho
      · cases ho
      rename_i h1 h2
      obtain ⟨q, hq, ho⟩ := Out.bind_eq_ok.1 ho
      cases ho
      unfold readInstalled at hq
      obtain ⟨⟨n, e, v, r⟩, hsp, hq⟩ := Out.bind_eq_ok.1 hq
      refine ⟨?_, by simpa using h2, n, e, v, r, p, hsp, ?_, hnevr⟩
      · cases ht : d.type with
        | standard => rfl
        | rpmonly => exact absurd ht h1
      · simp only at hq
        split at hq
        · cases hq
        · rename_i h3
          cases hq
          exact h3

/-- Non-vacuity of C70: a call that succeeds, and an rpm-only delta (of a package with an empty name
    and a signature MD5 of zeros) that is refused for a package with another name, with another
    signature, without one, and for the installed packages. -/
example : ∃ file, applied demoApply file (.rpm (.ok demoOldPkg)) 0 = .ok () := by
  obtain ⟨file, _, h⟩ := C48_demo_rpmonly true
  exact ⟨file, by unfold applied; rw [h]⟩

example (file : Bytes) (hf : file = sampleFile (sampleStream 51 1 2 [2, 0, 5, 2^31 + 15, 10, 4] 20)) (r : Rpm) :
    applied demoApply file (.rpm (.ok { r with nevr := .ok [98], sigMd5 := .ok (some (zeros 16)) })) 0 = .err .mismatch ∧
    applied demoApply file (.rpm (.ok { r with sigMd5 := .ok (some []) })) 0 = .err .mismatch ∧
    applied demoApply file (.rpm (.ok { r with sigMd5 := .ok none })) 0 = .err .format ∧
    applied demoApply file (.installed inOrderDb inOrderDisk) 0 = .err .args := by
  subst hf
  have h : Out.okAnd (readDelta demoApply.dec demoApply.rpmHead
      (sampleFile (sampleStream 51 1 2 [2, 0, 5, 2^31 + 15, 10, 4] 20)))
      (fun d => d.type = .rpmonly ∧ d.sequence = zeros 16 ∧ d.srcNevr = []) = true := by decide +kernel
  obtain ⟨d, hd, h⟩ := okAnd_ok h
  simp only [decide_eq_true_eq] at h
  obtain ⟨ht, hs, hn⟩ := h
  obtain ⟨_, c2, c3, c4, c5, _⟩ := C70_refused demoApply _ d 0 hd
  refine ⟨c4 _ [98] (fun _ => by rw [hs]) rfl (by rw [hn]; decide), c3 _ [] ht rfl ?_, c2 _ ht rfl, c5 _ _ (Or.inl ht)⟩
  rw [hs]
  decide

end Drpm
