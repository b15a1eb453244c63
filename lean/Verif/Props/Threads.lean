import Verif.ThreadLemmas
import Verif.Props.History
/-!
# C95: applying deltas in several threads at the same time
-/

namespace Drpm

/-- C95. Any number of calls, any schedule, any interference with the counter: a call that has ended has
    done what it does when it runs alone. -/
theorem C95_threads (jobs : List (Job × CacheCfg)) (hcfg : ∀ j ∈ jobs, blocksCreate j.1.size j.1.exts = .ok j.2 ∧ Words j.1.exts)
    (counter : Nat) (sched : List (Nat × Option Nat)) (i : Nat) (j : Job) (cfg : CacheCfg) (hj : jobs[i]? = some (j, cfg))
    (t : Thread) (ht : ((Process.mk counter (jobs.map fun x => x.1.thread x.2)).run sched).threads[i]? = some t)
    (r : Out (List Bytes)) (hr : t.prog = .done r) (cleanup : Nat) : r = j.alone cfg cleanup := by
  obtain ⟨c, p, rfl, hv, k, hk⟩ := follows_run (j := j) (cfg := cfg) sched _ (fun t' ht' => by
    rw [List.getElem?_map, hj] at ht'
    cases ht'
    exact ⟨_, _, rfl, SoFar.init _ _ _ _⟩) t ht
  obtain ⟨h1, h2⟩ := hcfg (j, cfg) (List.mem_of_getElem? hj)
  simp only at hr h1 h2
  subst hr
  have h3 := hk hv (fun _ _ => rfl)
  simp only [Job.thread] at h3
  rw [runProg_alone, reconWrites_shared j.step j.start h1 h2 j.useAdd j.ints j.intData j.add hv 0 cleanup] at h3
  exact h3.symm

/-- C95: a call ends once it has had its turn often enough, whatever the others do. -/
theorem C95_ends (jobs : List (Job × CacheCfg)) (counter : Nat) (sched : List (Nat × Option Nat)) (i : Nat) (j : Job) (cfg : CacheCfg)
    (hj : jobs[i]? = some (j, cfg)) (t : Thread)
    (ht : ((Process.mk counter (jobs.map fun x => x.1.thread x.2)).run sched).threads[i]? = some t)
    (hn : requestsOf j.exts ≤ (sched.filter (fun x => x.1 == i)).length) : ∃ r, t.prog = .done r := by
  have h := atMost_run sched _ (requestsOf j.exts) (fun t' ht' => by
    rw [List.getElem?_map, hj] at ht'
    cases ht'
    exact recon_atMost _ _ _ _ _) t ht
  rw [show requestsOf j.exts - (sched.filter (fun x => x.1 == i)).length = 0 by omega] at h
  generalize t.prog = p at h
  cases h with
  | done n r => exact ⟨r, rfl⟩

theorem applyLoop_shared (h : Nat → Nat) {d : Delta} {r : Rpm} {cfg : CacheCfg} (hcfg : blocksCreate d.extDataLen d.exts = .ok cfg)
    (hw : Words d.exts) (files : List FileInfo) (places : List CpioFile) (add : Option Bytes) (c : Nat) :
    applyLoopShared h d r files places cfg add = applyLoop d (.rpm r) files places cfg c add := by
  unfold applyLoopShared applyLoop
  simp only
  cases d.type with
  | rpmonly => exact reconWrites_shared _ _ hcfg hw _ _ _ _ h 0 c
  | standard => exact reconWrites_shared _ _ hcfg hw _ _ _ _ h 0 c

/-- C95 for a whole call: whatever values the counter has when the call looks at it, what `drpm_apply`
    returns and leaves at the output path is the same as when it runs alone. -/
theorem C95_call {σ : Type} (h : Nat → Nat) (env : ApplyEnv σ) (delta : Option (Out Bytes)) (named creatable : Bool) (old : Out Rpm)
    (cleanup : Nat) : drpmApplyShared h env delta named creatable old = drpmApply env ⟨delta, named, creatable, .rpm old⟩ cleanup := by
  have hp : ∀ file, planApplyShared h env file old = planApply env file (.rpm old) cleanup := by
    intro file
    unfold planApplyShared planApply
    refine Out.bind_ext (fun d hd => ?_)
    have hw := readDelta_words hd
    refine Out.bind_ext ?_
    rintro ⟨p, od⟩ ho
    simp only
    have hod : ∃ r, od = .rpm r := by
      unfold applyOld at ho
      obtain ⟨r, _, h2⟩ := Out.bind_eq_ok.mp ho
      obtain ⟨_, _, h3⟩ := Out.bind_eq_ok.mp h2
      cases h3
      exact ⟨r, rfl⟩
    obtain ⟨r, rfl⟩ := hod
    refine Out.bind_ext (fun _ _ => Out.bind_ext ?_)
    rintro ⟨files, places⟩ _
    refine Out.bind_ext (fun sig _ => ?_)
    have hb : planBodyShared h env file d (.rpm r) files places = planBody env file d (.rpm r) files places cleanup := by
      unfold planBodyShared planBody
      cases isNoDiff d with
      | true => rfl
      | false =>
        show _ = planDiff env file d (.rpm r) files places cleanup
        unfold planDiff
        refine Out.bind_ext (fun _ _ => Out.bind_ext (fun cfg hcfg => Out.bind_ext (fun add _ => ?_)))
        rw [applyLoop_shared h hcfg hw files places add cleanup]
    rw [hb]
  unfold drpmApplyShared drpmApply applyTo
  simp only [hp]
  rfl

/-- Three calls over three blocks each, from different sources; the second one's source fails. -/
def threadDemo (k : Nat) : Job :=
  ⟨Nat, fun n => if k = 1 ∧ n = 2 then .err .io else .ok (List.replicate 8192 (UInt8.ofNat (10 * k + n)), n + 1), 0, 20000,
    [(0, 5), (8190, 5), (8200, 5)], [(3, 0)], false, [], []⟩

/-- The hypotheses are met, and the calls end in the same way whether they take turns or not. -/
example : Out.okAnd (blocksCreate 20000 [(0, 5), (8190, 5), (8200, 5)]) (fun cfg =>
    let p := (Process.mk 5 ([0, 1, 2].map fun k => (threadDemo k).thread cfg)).run
      [(0, none), (1, none), (2, some 7), (2, none), (0, some 6), (1, none), (1, none), (0, none), (2, none)]
    (p.threads.map fun t => match t.prog with | .done r => some r | _ => none) ==
      [0, 1, 2].map fun k => some ((threadDemo k).alone cfg 0)) = true := by
  decide +kernel

end Drpm
