import Verif.Threads
import Verif.HistoryLemmas
/-!
# Lemmas about calls at the same time
-/

namespace Drpm

theorem runProg_of {τ α : Type} (next : BlockProvider τ) (x : Out α) (k : α → Prog) (c : τ) :
    runProg next (Prog.of x k) c = x >>= fun a => runProg next (k a) c := by
  cases x <;> rfl

theorem runProg_extCopy {τ : Type} (next : BlockProvider τ) (useAdd : Bool) (k : ReconSt Unit → Prog) :
    ∀ fuel len id (t : ReconSt τ), runProg next (extCopyProg useAdd k fuel len id t.flat) t.blk =
      extCopyLoop next useAdd fuel len id t >>= fun t' => runProg next (k t'.flat) t'.blk := by
  intro fuel
  induction fuel with
  | zero => intro len id t; rfl
  | succ n ih =>
    intro len id t
    rw [extCopyProg, extCopyLoop]
    by_cases h : len > 0
    · rw [if_pos h, if_pos h, runProg, bind_assoc]
      refine Out.bind_ext ?_
      rintro ⟨b, c⟩ _
      simp only
      rw [runProg_of, bind_assoc]
      refine Out.bind_ext ?_
      rintro ⟨b', add⟩ _
      exact ih _ _ { t with blk := c, add := add, out := t.out ++ [b'], extOff := (t.extOff + b.length) % 2^64 }
    · rw [if_neg h, if_neg h]
      rfl

theorem runProg_extCopies {τ : Type} (next : BlockProvider τ) (useAdd : Bool) (k : ReconSt Unit → Prog) :
    ∀ (l : List (Nat × Nat)) (t : ReconSt τ), runProg next (extCopiesProg useAdd k l t.flat) t.blk =
      extCopies next useAdd l t >>= fun t' => runProg next (k t'.flat) t'.blk := by
  intro l
  induction l with
  | nil => intro t; rfl
  | cons x l ih =>
    intro t
    obtain ⟨w, len⟩ := x
    rw [extCopiesProg, extCopies, bind_assoc]
    refine (runProg_extCopy next useAdd _ (len + 1) len _ { t with extOff := addS32 t.extOff w }).trans ?_
    refine Out.bind_ext (fun t' _ => ?_)
    exact ih { t' with done := t'.done + 1 }

/-- The program is the loop. -/
theorem runProg_recon {τ : Type} (next : BlockProvider τ) (useAdd : Bool) : ∀ (ints ext : List (Nat × Nat)) (d : Bytes) (t : ReconSt τ),
    runProg next (reconProg useAdd ints ext d t.flat) t.blk = reconLoop next useAdd ints ext d t >>= fun t' => .ok t'.out := by
  intro ints
  induction ints with
  | nil => intro ext d t; rfl
  | cons x ints ih =>
    intro ext d t
    obtain ⟨todo, len⟩ := x
    rw [reconProg, reconLoop]
    by_cases h : todo > ext.length
    · rw [if_pos h, if_pos h]; rfl
    · rw [if_neg h, if_neg h, runProg_extCopies, bind_assoc]
      refine Out.bind_ext (fun t' _ => ?_)
      rw [runProg_of, bind_assoc]
      refine Out.bind_ext (fun b _ => ?_)
      exact ih _ _ { t' with out := t'.out ++ [b] }

theorem runProg_alone {τ : Type} (next : BlockProvider τ) (c : τ) (useAdd : Bool) (ints ext : List (Nat × Nat)) (d add : Bytes) :
    runProg next (reconProg useAdd ints ext d ⟨(), 0, 0, add, []⟩) c = reconWrites next c useAdd ext ints d add :=
  runProg_recon next useAdd ints ext d ⟨c, 0, 0, add, []⟩

variable {σ : Type} {cfg : CacheCfg} {B : Nat → Bytes} {step : σ → Out (Bytes × σ)} {S : Nat → σ} {F : Nat}

theorem sharedNext_tells (hS : Source cfg step S B F) (h : Nat → Nat) :
    Tells cfg step S B F (sharedNext h (blocksNext cfg (rpmFiller cfg step))) Prod.snd := by
  intro c off len cnt id hc hm u
  unfold sharedNext
  have h1 : CacheOk cfg B false (Until S F) { c.2 with cleanup := h c.1 } cnt id :=
    ⟨hc.inv.setLastCleanup c.2.last (h c.1), hc.lastOk, hc.srcOk, hc.zero⟩
  have := blocksNext_told hS h1 hm u (off := off) (len := len)
  have e : toldNext cfg.nblk F B (step (S F)) u off len cnt id =
      toldNext cfg.nblk F B (step (S F)) u off len cnt id >>= fun x => .ok x := by
    cases toldNext cfg.nblk F B (step (S F)) u off len cnt id <;> rfl
  rw [e]
  refine Out.Match.bind this ?_
  rintro x y ⟨h1, h2, h3⟩
  exact ⟨h1, h2, h3⟩

/-- The result of the loop over a package does not depend on the values of the counter. -/
theorem reconWrites_shared (step : σ → Out (Bytes × σ)) (s0 : σ) {extLen : Nat} {exts : List (Nat × Nat)} {cfg : CacheCfg}
    (hcfg : blocksCreate extLen exts = .ok cfg) (hw : Words exts) (useAdd : Bool) (ints : List (Nat × Nat)) (d add : Bytes) (h : Nat → Nat)
    (c1 c2 : Nat) :
    reconWrites (sharedNext h (blocksNext cfg (rpmFiller cfg step))) (0, emptyCache s0 c1) useAdd exts ints d add =
      reconWrites (blocksNext cfg (rpmFiller cfg step)) (emptyCache s0 c2) useAdd exts ints d add := by
  obtain ⟨F, B, S, x, hS, hx, hmk, h0⟩ : ∃ F B S, ∃ x : Out (Bytes × σ), Source cfg step S B F ∧ step (S F) = x ∧
      Marked cfg.nblk cfg.max 0 0 exts ∧ S 0 = s0 := by
    unfold blocksCreate at hcfg
    split at hcfg
    · cases hcfg
    · rename_i hno
      obtain ⟨mx, hm1, hm2⟩ := Out.bind_eq_ok.mp hcfg
      cases hm2
      have hnb : blocksOf extLen < 2^32 := by omega
      obtain ⟨_, hmk⟩ := markCopies_marked hnb exts 0 0 (fun _ => 0) mx hw (fun _ => Nat.le_refl _) hm1
      obtain ⟨F, _, hF2, hF3⟩ := source_runs step s0 (blocksOf extLen)
      exact ⟨F, runBlocks step s0, runStates step s0, _,
        { room := (show 0 < maxCoreBlocks by decide)
          blocks := hnb
          runs := hF2
          ends := hF3.imp (fun h => by rw [h]; exact Nat.le_refl _) id }, rfl, hmk, rfl⟩
  subst h0
  have k1 := reconLoop_told hS (sharedNext_tells hS h) useAdd ints exts d ⟨(0, emptyCache (S 0) c1), 0, 0, add, []⟩ hmk
    (fun id => emptyCache_ok ⟨rfl, Nat.zero_le _⟩)
  have k2 := reconLoop_told (next := blocksNext cfg (rpmFiller cfg step)) (pr := fun c => c) hS (fun _ _ _ _ _ h hm u => blocksNext_told hS h hm u) useAdd ints exts d ⟨emptyCache (S 0) c2, 0, 0, add, []⟩ hmk
    (fun id => emptyCache_ok ⟨rfl, Nat.zero_le _⟩)
  have key : ∀ {τ : Type} {next : BlockProvider τ} {c : τ},
      Out.Match (fun t' v => v = t'.flat) (reconLoop next useAdd ints exts d ⟨c, 0, 0, add, []⟩)
        (reconLoop (toldNext cfg.nblk F B (step (S F))) useAdd ints exts d ⟨(), 0, 0, add, []⟩) →
      reconWrites next c useAdd exts ints d add = reconWrites (toldNext cfg.nblk F B (step (S F))) () useAdd exts ints d add := by
    intro τ next c hm
    refine Out.Match.eq (Out.Match.bind hm ?_)
    rintro t _ rfl
    rfl
  rw [key k1, key k2]

/-! ## Schedules -/

/-- What a call has done so far: with the values `h` of the counter at its first `k` requests, the rest of
    the program from its present cache gives what the whole program gives from the beginning. -/
def SoFar {σ : Type} (cfg : CacheCfg) (step : σ → Out (Bytes × σ)) (c0 : Cache σ) (p0 : Prog) (c : Cache σ) (p : Prog) : Prop :=
  ∃ (h : Nat → Nat) (k : Nat), ∀ h', (∀ j, j < k → h' j = h j) →
    runProg (sharedNext h' (blocksNext cfg (rpmFiller cfg step))) p0 (0, c0) =
      runProg (sharedNext h' (blocksNext cfg (rpmFiller cfg step))) p (k, c)

theorem SoFar.init {σ : Type} (cfg : CacheCfg) (step : σ → Out (Bytes × σ)) (c0 : Cache σ) (p0 : Prog) : SoFar cfg step c0 p0 c0 p0 :=
  ⟨fun _ => 0, 0, fun _ _ => rfl⟩

/-- A thread of a job. -/
def Follows (j : Job) (cfg : CacheCfg) (t : Thread) : Prop :=
  ∃ (c : Cache j.src) (p : Prog), t = ⟨j.src, cfg, j.step, c, p⟩ ∧ SoFar cfg j.step (j.thread cfg).cache (j.thread cfg).prog c p

theorem follows_next {j : Job} {cfg : CacheCfg} {t : Thread} (h : Follows j cfg t) (counter : Nat) : Follows j cfg (t.next counter).2 := by
  obtain ⟨c, p, rfl, hv, k, hk⟩ := h
  cases p with
  | done r => exact ⟨c, .done r, rfl, hv, k, hk⟩
  | ask off len cnt id q =>
    simp only [Thread.next]
    -- the counter at request number k
    have hext : ∀ h' : Nat → Nat, (∀ i, i < k + 1 → h' i = if i = k then counter else hv i) → (∀ i, i < k → h' i = hv i) ∧ h' k = counter := by
      intro h' hh
      refine ⟨fun i hi => ?_, ?_⟩
      · rw [hh i (by omega), if_neg (by omega)]
      · rw [hh k (by omega), if_pos rfl]
    have hrun : ∀ h', h' k = counter → runProg (sharedNext h' (blocksNext cfg (rpmFiller cfg j.step))) (.ask off len cnt id q) (k, c) =
        blocksNext cfg (rpmFiller cfg j.step) { c with cleanup := counter } off len cnt id >>= fun x =>
          runProg (sharedNext h' (blocksNext cfg (rpmFiller cfg j.step))) (q x.1) (k + 1, x.2) := by
      intro h' hh
      rw [runProg, sharedNext, bind_assoc]
      simp only
      rw [hh]
      rfl
    cases hb : blocksNext cfg (rpmFiller cfg j.step) { c with cleanup := counter } off len cnt id with
    | ok x =>
      refine ⟨x.2, q x.1, rfl, fun i => if i = k then counter else hv i, k + 1, fun h' hh => ?_⟩
      obtain ⟨e1, e2⟩ := hext h' hh
      rw [hk h' e1, hrun h' e2, hb]
      rfl
    | err e =>
      refine ⟨c, .done (.err e), rfl, fun i => if i = k then counter else hv i, k + 1, fun h' hh => ?_⟩
      obtain ⟨e1, e2⟩ := hext h' hh
      rw [hk h' e1, hrun h' e2, hb]
      rfl
    | ub =>
      refine ⟨c, .done .ub, rfl, fun i => if i = k then counter else hv i, k + 1, fun h' hh => ?_⟩
      obtain ⟨e1, e2⟩ := hext h' hh
      rw [hk h' e1, hrun h' e2, hb]
      rfl
    | loop =>
      refine ⟨c, .done .loop, rfl, fun i => if i = k then counter else hv i, k + 1, fun h' hh => ?_⟩
      obtain ⟨e1, e2⟩ := hext h' hh
      rw [hk h' e1, hrun h' e2, hb]
      rfl

theorem step_get (p : Process) (i : Nat) (v : Option Nat) (m : Nat) : (p.step i v).threads[m]? =
    if m = i then (p.threads[m]?).map (fun t => (t.next p.counter).2) else p.threads[m]? := by
  unfold Process.step
  cases hi : p.threads[i]? with
  | none =>
    simp only
    split
    · rename_i h; subst h; rw [hi]; rfl
    · rfl
  | some t =>
    simp only [List.getElem?_set]
    by_cases h : i = m
    · subst h
      rw [if_pos rfl, if_pos rfl, hi]
      obtain ⟨hl, _⟩ := List.getElem?_eq_some_iff.mp hi
      rw [if_pos hl]
      rfl
    · rw [if_neg h, if_neg (fun h' => h h'.symm)]

theorem follows_run {j : Job} {cfg : CacheCfg} {m : Nat} : ∀ (sched : List (Nat × Option Nat)) (p : Process),
    (∀ t, p.threads[m]? = some t → Follows j cfg t) → ∀ t, (p.run sched).threads[m]? = some t → Follows j cfg t := by
  intro sched
  induction sched with
  | nil => intro p h t ht; exact h t ht
  | cons x sched ih =>
    intro p h t ht
    obtain ⟨i, v⟩ := x
    refine ih (p.step i v) (fun t' ht' => ?_) t ht
    rw [step_get] at ht'
    split at ht'
    · cases hp : p.threads[m]? with
      | none => rw [hp] at ht'; cases ht'
      | some u =>
        rw [hp] at ht'
        cases ht'
        exact follows_next (h u hp) _
    · exact h t' ht'

/-! ## Every call ends -/

/-- A program makes at most `n` requests. -/
inductive AtMost : Nat → Prog → Prop where
  | done (n : Nat) (r : Out (List Bytes)) : AtMost n (.done r)
  | ask {n off len cnt id : Nat} {k : Bytes → Prog} : (∀ b, AtMost n (k b)) → AtMost (n + 1) (.ask off len cnt id k)

theorem AtMost.of {α : Type} {n : Nat} {x : Out α} {k : α → Prog} (h : ∀ a, AtMost n (k a)) : AtMost n (Prog.of x k) := by
  cases x with
  | ok a => exact h a
  | err e => exact .done _ _
  | ub => exact .done _ _
  | loop => exact .done _ _

theorem AtMost.mono {n m : Nat} {p : Prog} (h : AtMost n p) (hm : n ≤ m) : AtMost m p := by
  induction h generalizing m with
  | done n r => exact .done _ _
  | ask _ ih =>
    cases m with
    | zero => omega
    | succ m => exact .ask (fun b => ih b (by omega))

theorem extCopy_atMost {useAdd : Bool} {k : ReconSt Unit → Prog} {n : Nat} (hk : ∀ s, AtMost n (k s)) : ∀ fuel len id s,
    AtMost (n + fuel) (extCopyProg useAdd k fuel len id s) := by
  intro fuel
  induction fuel with
  | zero => intro len id s; exact .done _ _
  | succ f ih =>
    intro len id s
    rw [extCopyProg]
    split
    · exact .ask (fun b => AtMost.of (fun x => ih _ _ _))
    · exact (hk s).mono (by omega)

/-- The number of requests that copies can need. -/
def requestsOf : List (Nat × Nat) → Nat
  | [] => 0
  | x :: l => (x.2 + 1) + requestsOf l

theorem requestsOf_append (l m : List (Nat × Nat)) : requestsOf (l ++ m) = requestsOf l + requestsOf m := by
  induction l with
  | nil => simp [requestsOf]
  | cons x l ih => simp only [List.cons_append, requestsOf, ih]; omega

theorem extCopies_atMost {useAdd : Bool} {k : ReconSt Unit → Prog} {n : Nat} (hk : ∀ s, AtMost n (k s)) : ∀ l s,
    AtMost (n + requestsOf l) (extCopiesProg useAdd k l s) := by
  intro l
  induction l with
  | nil => intro s; exact hk s
  | cons x l ih =>
    intro s
    obtain ⟨w, len⟩ := x
    rw [extCopiesProg, requestsOf]
    exact (extCopy_atMost (n := n + requestsOf l) (fun s => ih _) (len + 1) len _ _).mono (by simp only; omega)

theorem recon_atMost (useAdd : Bool) : ∀ ints ext d s, AtMost (requestsOf ext) (reconProg useAdd ints ext d s) := by
  intro ints
  induction ints with
  | nil => intro ext d s; exact .done _ _
  | cons x ints ih =>
    intro ext d s
    obtain ⟨todo, len⟩ := x
    rw [reconProg]
    split
    · exact .done _ _
    · have h : requestsOf ext = requestsOf (ext.drop todo) + requestsOf (ext.take todo) := by
        have := requestsOf_append (ext.take todo) (ext.drop todo)
        rw [List.take_append_drop] at this
        omega
      rw [h]
      exact extCopies_atMost (n := requestsOf (ext.drop todo)) (fun s => AtMost.of (fun b => ih _ _ _)) _ _

theorem atMost_next {n : Nat} {t : Thread} (h : AtMost n t.prog) (counter : Nat) : AtMost (n - 1) (t.next counter).2.prog := by
  obtain ⟨src, cfg, step, cache, prog⟩ := t
  cases h with
  | done n r => exact .done _ _
  | ask hk =>
    unfold Thread.next
    simp only
    split
    · exact hk _
    · exact .done _ _
    · exact .done _ _
    · exact .done _ _

theorem atMost_run {m : Nat} : ∀ (sched : List (Nat × Option Nat)) (p : Process) (n : Nat),
    (∀ t, p.threads[m]? = some t → AtMost n t.prog) → ∀ t, (p.run sched).threads[m]? = some t →
      AtMost (n - (sched.filter (fun x => x.1 == m)).length) t.prog := by
  intro sched
  induction sched with
  | nil => intro p n h t ht; exact h t ht
  | cons x sched ih =>
    intro p n h t ht
    obtain ⟨i, v⟩ := x
    by_cases hi : i = m
    · have := ih (p.step i v) (n - 1) (fun t' ht' => by
        rw [step_get, if_pos hi.symm] at ht'
        cases hp : p.threads[m]? with
        | none => rw [hp] at ht'; cases ht'
        | some u =>
          rw [hp] at ht'
          cases ht'
          exact atMost_next (h u hp) _) t ht
      refine this.mono ?_
      rw [List.filter_cons_of_pos (by simpa using hi), List.length_cons]
      omega
    · have := ih (p.step i v) n (fun t' ht' => by
        rw [step_get, if_neg (fun h' => hi h'.symm)] at ht'
        exact h t' ht') t ht
      rw [List.filter_cons_of_neg (by simpa using hi)]
      exact this

end Drpm
