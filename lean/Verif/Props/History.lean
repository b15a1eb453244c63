import Verif.HistoryLemmas
import Verif.WriteFaultLemmas
import Verif.RpmFile
import Verif.Props.RpmMake
/-!
# C88: applying a delta to a package file does not depend on what the process did before

The only thing that one call of `drpm_apply` leaves behind in the library for the next is the counter
of the block cache (a static variable, src/drpm_block.c:315), which decides when blocks are given up.
-/

namespace Drpm

theorem readDelta_words {dec : Decoder} {rpmR : Bytes → Out (Nat × Nat)} {file : Bytes} {d : Delta}
    (h : readDelta dec rpmR file = .ok d) : Words d.exts := by
  obtain ⟨d0, s, r, h1, _⟩ := readDelta_inv dec rpmR file d h
  exact (rdRest_full d0 s _ _ h1).2.2.2.2.2.1

theorem applyLoop_cleanup {d : Delta} {r : Rpm} {cfg : CacheCfg} (hcfg : blocksCreate d.extDataLen d.exts = .ok cfg)
    (hw : Words d.exts) (files : List FileInfo) (places : List CpioFile) (add : Option Bytes) (c1 c2 : Nat) :
    applyLoop d (.rpm r) files places cfg c1 add = applyLoop d (.rpm r) files places cfg c2 add := by
  unfold applyLoop
  simp only
  cases d.type with
  | rpmonly => exact reconWrites_cleanup _ _ hcfg hw _ _ _ _ c1 c2
  | standard => exact reconWrites_cleanup _ _ hcfg hw _ _ _ _ c1 c2

theorem planApplyOn_cleanup {σ : Type} (env : ApplyEnv σ) (file : Bytes) (old : Out Rpm) (c1 c2 : Nat) :
    planApplyOn env file (.rpm old) c1 = planApplyOn env file (.rpm old) c2 := by
  unfold planApplyOn
  refine Out.bind_ext (fun d hd => ?_)
  have hw := readDelta_words hd
  refine Out.bind_ext ?_
  rintro ⟨p, od⟩ ho
  simp only
  have hod : ∃ r, od = .rpm r := by
    unfold applyOld at ho
    obtain ⟨r, _, h2⟩ := Out.bind_eq_ok.mp ho
    obtain ⟨_, _, h3⟩ := Out.bind_eq_ok.mp h2
    cases h3
    exact ⟨r, rfl⟩
  obtain ⟨r, rfl⟩ := hod
  refine Out.bind_ext (fun _ _ => Out.bind_ext ?_)
  rintro ⟨files, places⟩ _
  refine Out.bind_ext (fun sig _ => ?_)
  have hb : planBodyOn env d (.rpm r) files places c1 = planBodyOn env d (.rpm r) files places c2 := by
    unfold planBodyOn
    cases isNoDiff d with
    | true => rfl
    | false =>
      show planDiffOn env d (.rpm r) files places c1 = planDiffOn env d (.rpm r) files places c2
      unfold planDiffOn
      refine Out.bind_ext (fun _ _ => Out.bind_ext (fun cfg hcfg => Out.bind_ext (fun add _ => ?_)))
      rw [applyLoop_cleanup hcfg hw files places add c1 c2]
  rw [hb]

/-- C88. For every delta (damaged and hostile ones, too) and every old package: what `drpm_apply`
    returns and what it leaves at the output path are the same whatever earlier calls have left in the
    counter. -/
theorem C88_history {σ : Type} (env : ApplyEnv σ) (delta : Option (Out Bytes)) (named creatable : Bool) (old : Out Rpm)
    (c1 c2 : Nat) : drpmApply env ⟨delta, named, creatable, .rpm old⟩ c1 = drpmApply env ⟨delta, named, creatable, .rpm old⟩ c2 := by
  have h : ∀ file, planApply env file (.rpm old) c1 = planApply env file (.rpm old) c2 := fun file => by
    rw [planApply_on, planApply_on, planApplyOn_cleanup env file old c1 c2]
  unfold drpmApply applyTo
  simp only [h]

/-- C88 when writing fails at any place. -/
theorem C88_faults {σ : Type} (f : ApplyFaults) (env : ApplyEnv σ) (delta : Option (Out Bytes)) (named creatable : Bool) (old : Out Rpm)
    (c1 c2 : Nat) :
    drpmApplyOn f env ⟨delta, named, creatable, .rpm old⟩ c1 = drpmApplyOn f env ⟨delta, named, creatable, .rpm old⟩ c2 := by
  have h : ∀ file, planApplyOn env file (.rpm old) c1 = planApplyOn env file (.rpm old) c2 := fun file =>
    planApplyOn_cleanup env file old c1 c2
  unfold drpmApplyOn applyToOn
  simp only [h]

/-- C88 for the bytes of the two files. -/
theorem C88_files {η σ τ : Type} (w : World η σ τ) (old delta : Bytes) (c1 c2 : Nat) :
    applyFiles w old delta c1 = applyFiles w old delta c2 :=
  C88_history w.applyEnv (some (.ok delta)) true true (rpmOf w.lib w.U false old) c1 c2

/-- The counter does make a difference inside: the same copies from the same three blocks, with the
    counter at 0 and at 7, end with different caches (three core blocks and two) and the same output. -/
example : Out.okAnd (blocksCreate 20000 [(0, 5), (8190, 5), (8200, 5)]) (fun cfg =>
    Out.okAnd (reconLoop (blocksNext cfg (rpmFiller cfg (fun k : Nat => .ok (List.replicate 8192 (UInt8.ofNat k), k + 1)))) false
      [(3, 0)] [(0, 5), (8190, 5), (8200, 5)] [] ⟨emptyCache 0 0, 0, 0, [], []⟩) (fun s =>
    Out.okAnd (reconLoop (blocksNext cfg (rpmFiller cfg (fun k : Nat => .ok (List.replicate 8192 (UInt8.ofNat k), k + 1)))) false
      [(3, 0)] [(0, 5), (8190, 5), (8200, 5)] [] ⟨emptyCache 0 6, 0, 0, [], []⟩) (fun t =>
    s.blk.coreCount == 3 && t.blk.coreCount == 2 && s.out == t.out))) = true := by
  decide +kernel

/-- The same with a source that fails at its third block: the same error. -/
example : Out.okAnd (blocksCreate 20000 [(0, 5), (8190, 5), (8200, 5)]) (fun cfg =>
    [0, 6, 7].all (fun c => match reconLoop (blocksNext cfg (rpmFiller cfg (fun k : Nat =>
      if k < 2 then .ok (List.replicate 8192 (UInt8.ofNat k), k + 1) else .err .io))) false
      [(3, 0)] [(0, 5), (8190, 5), (8200, 5)] [] ⟨emptyCache 0 c, 0, 0, [], []⟩ with | .err e => e == .io | _ => false)) = true := by
  decide +kernel

end Drpm
