import Verif.Props.RpmMake
import Verif.Props.Make
import Verif.Props.WriteFault
import Verif.Props.Format
/-!
# Updating along a chain of deltas (C96)
-/

namespace Drpm

/-- `drpm_make` for every step from one version of a package to the next; a step is the options of the
    call and the next package file. -/
def makeChain {η σ τ : Type} (w : World η σ τ) : Bytes → List (Opts Bytes × Bytes) → Out (List Bytes)
  | _, [] => .ok []
  | p, (o, q) :: rest => do
    let d ← makeFiles w o p q
    let ds ← makeChain w q rest
    .ok (d :: ds)

/-- `drpm_apply` for one delta after the other, each to the file that the call before has written; with
    each delta comes what earlier calls in that process left behind. `none`: a call failed. -/
def applyChain {η σ τ : Type} (w : World η σ τ) : Bytes → List (Bytes × Nat) → Option Bytes
  | p, [] => some p
  | p, (d, cleanup) :: rest =>
    match applyFiles w p d cleanup with
    | (.ok (), .written q) => applyChain w q rest
    | _ => none

/-- A delta of one kind or the other can be made from `old` to `new`: the conditions of C68. -/
inductive Updates {η σ τ : Type} (w : World η σ τ) (o : Opts Bytes) (old new : PkgFile w.lib) : Prop
  | rpmonly (ho : o.rpmOnly = true) (hv : o.version = 3) (oa na : Bytes) (oc nc : Comp) (level : Nat)
      (hold : Unpacks w.U old oa oc) (hnew : GoodNew w new na nc level)
      (hn : GoodNevr (getNevr w.lib old.hdr)) (hn' : GoodNevr (getNevr w.lib new.hdr))
      (hmd5 : w.lib.get old.sig 1004 = some (.bin (w.H (old.header ++ old.payload))))
      (hd : GoodDeltaComp w o new.lead nc level)
      (hsize : oa.length ≤ 2^43 ∧ na.length < 2^62)
      (hsmall : old.header.length + oa.length < 2^31 ∨ new.header.length + na.length < 2^31)
      (hcnt : FewCopies (old.header ++ oa) (new.header ++ na) o.addblk)
      (hadd : GoodAdd (w.makeEnv new.lead) w.applyEnv o (new.header.length + na.length))
      (hcomp : Reproduces w.applyEnv nc.code level na new.payload) : Updates w o old new
  | standard (ho : o.rpmOnly = false) (hv : 1 ≤ o.version ∧ o.version ≤ 3) (oa na : Bytes) (oc nc : Comp) (level : Nat)
      (hold : Unpacks w.U old oa oc) (fs : List FileInfo) (colors : Bool) (algo : Nat) (c : Made) (hb : GoodBase w o old oa fs colors algo c)
      (hnew : GoodNew w new na nc level)
      (hc : Comp) (hname : ∃ s, (s, hc) ∈ payloadNames ∧ w.lib.get new.hdr 1125 = some (.str (ascii s))) (hv1 : o.version = 1 → hc = nc)
      (hd : GoodDeltaComp w o new.lead nc level)
      (hsize : 16 ≤ na.length ∧ na.length < 2^63 ∧ (o.version < 3 → na.length < 2^32))
      (hsmall : c.cpio.length < 2^31 ∨ na.length < 2^31)
      (hcnt : FewCopies c.cpio na o.addblk)
      (hadd : GoodAdd (w.makeEnv new.lead) w.applyEnv o na.length)
      (hcomp : Reproduces w.applyEnv nc.code (if o.version = 1 then 0 else level) na new.payload) : Updates w o old new

/-- Versions of a package, each with the options for the delta that leads to it. -/
def History {η σ τ : Type} (w : World η σ τ) : PkgFile w.lib → List (Opts Bytes × PkgFile w.lib) → Prop
  | _, [] => True
  | p, (o, q) :: rest => Updates w o p q ∧ History w q rest

/-- The last version. -/
def latest {η : Type} {lib : Rpmlib η} (p : PkgFile lib) (steps : List (Opts Bytes × PkgFile lib)) : PkgFile lib :=
  ((steps.map (·.2)).getLast?).getD p

theorem Updates.works {η σ τ : Type} {w : World η σ τ} {Ok : TagData → Prop} (hl : HeaderLaws w.lib Ok) (h16 : ∀ b, (w.H b).length = 16)
    {o : Opts Bytes} {old new : PkgFile w.lib} (h : Updates w o old new) :
    ∃ delta, makeFiles w o old.file new.file = .ok delta ∧ ∀ cleanup, applyFiles w old.file delta cleanup = (.ok (), .written new.file) := by
  cases h with
  | rpmonly ho hv oa na oc nc level hold hnew hn hn' hmd5 hd hsize hsmall hcnt hadd hcomp =>
    exact C68_rpmonly w Ok hl h16 o ho hv old new oa na oc nc level hold hnew hn hn' hmd5 hd hsize hsmall hcnt hadd hcomp
  | standard ho hv oa na oc nc level hold fs colors algo c hb hnew hc hname hv1 hd hsize hsmall hcnt hadd hcomp =>
    exact C68_standard w Ok hl h16 o ho hv old new oa na oc nc level hold fs colors algo c hb hnew hc hname hv1 hd hsize hsmall hcnt hadd hcomp

/-- C96. However long the history of a package is, whichever kind of delta and options each step has,
    and whatever earlier calls left behind in the processes that apply them: the deltas can be made, and
    applying them one after the other to the first package file gives the last one, byte for byte. -/
theorem C96_chain {η σ τ : Type} (w : World η σ τ) (Ok : TagData → Prop) (hl : HeaderLaws w.lib Ok) (h16 : ∀ b, (w.H b).length = 16)
    (first : PkgFile w.lib) (steps : List (Opts Bytes × PkgFile w.lib)) (h : History w first steps) :
    ∃ deltas, makeChain w first.file (steps.map fun s => (s.1, s.2.file)) = .ok deltas ∧ deltas.length = steps.length ∧
      ∀ cleanups : List Nat, cleanups.length = steps.length →
        applyChain w first.file (deltas.zip cleanups) = some (latest first steps).file := by
  induction steps generalizing first with
  | nil =>
    refine ⟨[], rfl, rfl, fun cs hc => ?_⟩
    rfl
  | cons s steps ih =>
    obtain ⟨o, q⟩ := s
    obtain ⟨h1, h2⟩ := h
    obtain ⟨delta, d1, d2⟩ := h1.works hl h16
    obtain ⟨ds, e1, e2, e3⟩ := ih q h2
    refine ⟨delta :: ds, ?_, by simp [e2], fun cs hc => ?_⟩
    · simp only [List.map_cons, makeChain]
      rw [d1, Out.bind_ok, e1]
      rfl
    · cases cs with
      | nil => simp at hc
      | cons c cs =>
        simp only [List.zip_cons_cons, applyChain, d2 c]
        rw [e3 cs (by simpa using hc)]
        unfold latest
        simp only [List.map_cons, List.getLast?_cons, Option.getD_some]

/-- C96, the order of the deltas: a delta that leads from `old` to `new` is not applied to another version.
    Whenever `drpm_apply` succeeds with it, the file it is applied to is a package with the name, epoch,
    version and release of `old`; for an rpm-only delta it also has the signature MD5 of `old`. -/
theorem C96_order {η σ τ : Type} (w : World η σ τ) (Ok : TagData → Prop) (hl : HeaderLaws w.lib Ok) (h16 : ∀ b, (w.H b).length = 16)
    (o : Opts Bytes) (old new : PkgFile w.lib) (h : Updates w o old new) (delta : Bytes)
    (hd : makeFiles w o old.file new.file = .ok delta) (other : Bytes) (cleanup : Nat)
    (ha : (applyFiles w other delta cleanup).1 = .ok ()) :
    ∃ r, rpmOf w.lib w.U false other = .ok r ∧ r.nevr = getNevr w.lib old.hdr ∧
      (o.rpmOnly = true → r.sigMd5 = sigGetMd5 w.lib old.sig) := by
  obtain ⟨delta', d1, d2⟩ := h.works hl h16
  rw [hd] at d1
  cases d1
  obtain ⟨oa, oc, hold⟩ : ∃ oa oc, Unpacks w.U old oa oc := by
    cases h with
    | rpmonly ho hv oa na oc nc level hold => exact ⟨oa, oc, hold⟩
    | standard ho hv oa na oc nc level hold => exact ⟨oa, oc, hold⟩
  have hself : applied w.applyEnv delta (.rpm (rpmOf w.lib w.U false old.file)) cleanup = .ok () := congrArg Prod.fst (d2 cleanup)
  obtain ⟨d, e1, p, p1, p2, p3⟩ := C70_applied _ _ _ _ hself
  obtain ⟨d', e1', r, r1, r2, r3⟩ := C70_applied w.applyEnv delta (.rpm (rpmOf w.lib w.U false other)) cleanup ha
  rw [e1] at e1'
  cases e1'
  rw [rpmOf_file hold] at p1
  cases p1
  refine ⟨r, r1, ?_, fun ho => ?_⟩
  · rw [r2, ← p2]
    rfl
  · have ht : d.type = .rpmonly := by
      cases hty : d.type with
      | rpmonly => rfl
      | standard =>
        have m := (C11_partial _ _ _ _ e1).2.1 hty
        have hd' := hd
        unfold makeFiles at hd'
        rw [drpmMake_parts] at hd'
        obtain ⟨q, hq, hd'⟩ := Out.bind_eq_ok.mp hd'
        have t := (makeParts_rpmonly _ _ _ _ h16 ho q hq).2
        cases hd'
        unfold writeHead at m
        rw [t] at m
        exact absurd m (by simp)
    rw [r3 ht, ← p3 ht]
    rfl

namespace Toy

theorem goodBack : GoodNew world oldFile demoArchive .gzip 9 := by
  refine ⟨unpacks _ _ rfl, sealedHdr_sealed _ (by decide +kernel), ?_, ⟨?_, Or.inl (by omega)⟩, by decide, ?_, Or.inr ?_⟩
  · decide +kernel
  · have : Out.okAnd (getLevel lib oldFile.hdr) (fun l => l = 9) = true := by decide +kernel
    obtain ⟨l, l1, l2⟩ := okAnd_ok this
    simp only [decide_eq_true_eq] at l2
    rw [← l2]
    exact l1
  · decide +kernel
  · decide +kernel

theorem goodCompBack (o : Opts Bytes) (ho : o.compFromRpm = true) : GoodDeltaComp world o oldFile.lead .gzip 9 := by
  refine ⟨.gzip, 9, by rw [if_pos ho]; exact ⟨rfl, rfl⟩, Or.inl (by omega), fun _ s => ⟨demoPack s, rfl, by simp [demoPack], ⟨_, rfl⟩, rfl⟩⟩

theorem goodAddBack (rpmOnly addblk : Bool) (version n : Nat) (hn : n < 2^30) :
    GoodAdd (world.makeEnv oldFile.lead) world.applyEnv (demoOpts rpmOnly version addblk) n := by
  intro _
  refine ⟨.gzip, by simp, rfl, Or.inl (by show 9 ≤ 9; omega), fun ws hw => ⟨demoPack ws.flatten, rfl, ?_, ?_, ⟨_, rfl⟩, rfl⟩⟩
  · simp [demoPack]
  · simp only [demoPack, List.length_append, List.length_cons, List.length_nil]
    omega

theorem reproducesBack (level : Nat) : Reproduces world.applyEnv 1 level demoArchive oldFile.payload := by
  unfold Reproduces
  rw [if_neg (by omega)]
  intro ps h _
  have := demoEnc_all ps []
  rw [h] at this
  exact this

theorem updatesStandard (addblk : Bool) : Updates world (demoOpts false 3 addblk) oldFile newFile := by
  obtain ⟨_, _, s3, s4, s5⟩ := demoSizes
  obtain ⟨c, hb, hc⟩ := goodBase addblk
  exact .standard rfl (by show 1 ≤ 3 ∧ 3 ≤ 3; omega) demoArchive demoNewPkg.archive .gzip .gzip 9 (unpacks _ _ rfl)
    demoFiles false 0 c hb goodNew .gzip ⟨"gzip", by decide +kernel, by decide +kernel⟩ (fun _ => rfl) (goodComp _ rfl)
    ⟨by omega, by omega, fun _ => by omega⟩ (by omega) (FewCopies.of_size _ _ _ (by omega) (by omega) (by omega))
    (goodAdd _ _ _ _ (by omega)) (reproduces _)

theorem updatesOnly (addblk : Bool) : Updates world (demoOpts true 3 addblk) oldFile newFile := by
  obtain ⟨s1, s2, s3, s4, s5⟩ := demoSizes
  have l1 := oldFile.header_length
  have l2 := newFile.header_length
  have c1 := oldFile.hdrOk.counts
  have c2 := newFile.hdrOk.counts
  refine .rpmonly rfl rfl demoArchive demoNewPkg.archive .gzip .gzip 9 (unpacks _ _ rfl)
    goodNew ⟨_, nevrs.1, by decide, by decide⟩ ⟨_, nevrs.2, by decide, by decide⟩ (by decide +kernel) (goodComp _ rfl) (by omega) (by omega)
    (FewCopies.of_size _ _ _ ?_ ?_ ?_) (goodAdd _ _ _ _ (by omega)) (reproduces 9)
  all_goals simp only [List.length_append]; omega

theorem updatesBack (addblk : Bool) : Updates world (demoOpts true 3 addblk) newFile oldFile := by
  obtain ⟨s1, s2, s3, s4, s5⟩ := demoSizes
  have l1 := oldFile.header_length
  have l2 := newFile.header_length
  have c1 := oldFile.hdrOk.counts
  have c2 := newFile.hdrOk.counts
  refine .rpmonly rfl rfl demoNewPkg.archive demoArchive .gzip .gzip 9 (unpacks _ _ rfl)
    goodBack ⟨_, nevrs.2, by decide, by decide⟩ ⟨_, nevrs.1, by decide, by decide⟩ (by decide +kernel) (goodCompBack _ rfl) (by omega) (by omega)
    (FewCopies.of_size _ _ _ ?_ ?_ ?_) (goodAddBack _ _ _ _ (by omega)) (reproducesBack 9)
  all_goals simp only [List.length_append]; omega

/-- From the old version to the new one with a standard delta, back to the old one with an rpm-only
    delta, and to the new one again with an rpm-only delta with add block. -/
def steps : List (Opts Bytes × PkgFile world.lib) :=
  [(demoOpts false 3 false, newFile), (demoOpts true 3 false, oldFile), (demoOpts true 3 true, newFile)]

theorem history : History world oldFile steps := ⟨updatesStandard _, updatesBack _, updatesOnly _, trivial⟩

end Toy

open Toy in
/-- Non-vacuity of C96: three deltas of both kinds lead to the new package file. -/
example : ∃ deltas : List Bytes, deltas.length = 3 ∧ applyChain world oldFile.file (deltas.zip [0, 7, 2]) = some newFile.file := by
  obtain ⟨ds, _, h2, h3⟩ := C96_chain world Ok laws md5_16 oldFile steps history
  exact ⟨ds, h2, h3 [0, 7, 2] rfl⟩

open Toy in
/-- Non-vacuity of C96, the order: the delta from the old to the new version exists and is applied to the old
    version, and cannot be applied to the new one. -/
example : ∃ delta, makeFiles world (demoOpts true 3 true) oldFile.file newFile.file = .ok delta ∧
    (applyFiles world oldFile.file delta 0).1 = .ok () ∧ (applyFiles world newFile.file delta 0).1 ≠ .ok () := by
  obtain ⟨delta, h1, h2⟩ := (updatesOnly true).works laws md5_16
  refine ⟨delta, h1, congrArg Prod.fst (h2 0), fun ha => ?_⟩
  obtain ⟨r, r1, r2, _⟩ := C96_order world Ok laws md5_16 _ _ _ (updatesOnly true) delta h1 newFile.file 0 ha
  rw [show rpmOf world.lib world.U false newFile.file = _ from rpmOf_file (unpacks newFile _ rfl) false] at r1
  cases r1
  have h3 : getNevr lib newFile.hdr = getNevr lib oldFile.hdr := r2
  rw [nevrs.1, nevrs.2] at h3
  exact absurd h3 (by decide)

end Drpm
