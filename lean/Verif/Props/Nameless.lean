import Verif.Props.RpmMake
/-!
# C63: packages whose name cannot be had
-/

namespace Drpm

theorem rpmOf_nevr {η σ : Type} {lib : Rpmlib η} {U : Unpack σ} (p : PkgFile lib) (wantColors : Bool) {r : Rpm}
    (h : rpmOf lib U wantColors p.file = .ok r) : r.nevr = getNevr lib p.hdr := by
  unfold rpmOf at h
  rw [p.readIntro_file, Out.bind_ok] at h
  obtain ⟨a, _, h⟩ := Out.bind_eq_ok.mp h
  obtain ⟨ls, _, h⟩ := Out.bind_eq_ok.mp h
  obtain ⟨x, _, h⟩ := Out.bind_eq_ok.mp h
  cases Out.ok.inj h
  rfl

/-- C63 (no name): a package of whose header rpmlib cannot tell the name is good for nothing: no delta is made from it, no
    rpm-only delta is made to it, and no delta is applied to it. -/
theorem C63_nameless {η σ τ : Type} (w : World η σ τ) (p : PkgFile w.lib) (h : w.lib.nevr p.hdr = none) :
    (∀ o new delta, makeFiles w o p.file new ≠ .ok delta) ∧
    (∀ o old delta, o.rpmOnly = true → makeFiles w o old p.file ≠ .ok delta) ∧
    ∀ delta cleanup, (applyFiles w p.file delta cleanup).1 ≠ .ok () := by
  have hn : getNevr w.lib p.hdr = .err .memory := by
    unfold getNevr
    rw [h]
  have key : ∀ o old new delta, makeFiles w o old new = .ok delta → ∃ ro rn d, rpmOf w.lib w.U true old = .ok ro ∧ rpmOf w.lib w.U true new = .ok rn ∧
      makePair (w.makeEnv (new.take 96)) o ro rn = .ok d := by
    intro o old new delta hm
    unfold makeFiles drpmMake at hm
    split at hm
    · cases hm
    · split at hm
      · cases hm
      · obtain ⟨d, hm, _⟩ := Out.bind_eq_ok.mp hm
        unfold makeAny at hm
        obtain ⟨ro, h1, hm⟩ := Out.bind_eq_ok.mp hm
        obtain ⟨rn, h2, hm⟩ := Out.bind_eq_ok.mp hm
        exact ⟨ro, rn, d, h1, h2, hm⟩
  refine ⟨?_, ?_, ?_⟩
  · intro o new delta hm
    obtain ⟨ro, rn, d, h1, _, hm⟩ := key _ _ _ _ hm
    unfold makePair at hm
    obtain ⟨_, _, hm⟩ := Out.bind_eq_ok.mp hm
    obtain ⟨_, _, hm⟩ := Out.bind_eq_ok.mp hm
    obtain ⟨x, hx, _⟩ := Out.bind_eq_ok.mp hm
    rw [rpmOf_nevr p true h1, hn] at hx
    cases hx
  · intro o old delta ho hm
    obtain ⟨ro, rn, d, _, h2, hm⟩ := key _ _ _ _ hm
    unfold makePair at hm
    obtain ⟨_, _, hm⟩ := Out.bind_eq_ok.mp hm
    obtain ⟨_, _, hm⟩ := Out.bind_eq_ok.mp hm
    obtain ⟨_, _, hm⟩ := Out.bind_eq_ok.mp hm
    obtain ⟨x, hx, _⟩ := Out.bind_eq_ok.mp hm
    unfold targetNevr at hx
    rw [if_pos ho, rpmOf_nevr p true h2, hn] at hx
    cases hx
  · intro delta cleanup ha
    have hp : ∀ pl, planApply w.applyEnv delta (.rpm (rpmOf w.lib w.U false p.file)) cleanup ≠ .ok pl := by
      intro pl hp
      unfold planApply at hp
      obtain ⟨d, _, hp⟩ := Out.bind_eq_ok.mp hp
      obtain ⟨⟨q, old⟩, hq, hp⟩ := Out.bind_eq_ok.mp hp
      obtain ⟨_, hs, _⟩ := Out.bind_eq_ok.mp hp
      unfold applyOld at hq
      obtain ⟨r, h1, hq⟩ := Out.bind_eq_ok.mp hq
      obtain ⟨_, _, hq⟩ := Out.bind_eq_ok.mp hq
      cases Out.ok.inj hq
      unfold sameNevr at hs
      obtain ⟨x, hx, _⟩ := Out.bind_eq_ok.mp hs
      have hx : r.nevr = .ok x := hx
      rw [rpmOf_nevr p false h1, hn] at hx
      cases hx
    unfold applyFiles drpmApply applyTo at ha
    simp only [Out.bind_ok] at ha
    rw [if_neg (by decide)] at ha
    cases hpl : planApply w.applyEnv delta (.rpm (rpmOf w.lib w.U false p.file)) cleanup with
    | ok pl => exact hp pl hpl
    | err e => rw [hpl] at ha; cases ha
    | ub => rw [hpl] at ha; cases ha
    | loop => rw [hpl] at ha; cases ha

open Toy in
/-- Non-vacuity: a package whose header has the tags of a signature only. -/
example : ∃ p : PkgFile world.lib, p.payload = demoPack demoArchive ∧ (∀ new delta, makeFiles world (demoOpts false 3 true) p.file new ≠ .ok delta) ∧
    ∀ delta cleanup, (applyFiles world p.file delta cleanup).1 ≠ .ok () :=
  let p : PkgFile world.lib := demoPkgFile _ oldSig (demoPack demoArchive) good3 good3 (by decide +kernel) (by decide +kernel)
  let h := C63_nameless world p (by decide +kernel)
  ⟨p, rfl, h.1 _, h.2.2⟩

end Drpm
