import Verif.WriteFault
/-!
# Lemmas on writes that fail
-/

namespace Drpm

/-- Every call writes everything. -/
def noFault : Nat → WriteRes := fun _ => .all

theorem put_noFault (k : Nat) (file b : Bytes) : put noFault k file b = (true, file ++ b, k + 1) := by
  simp [put, noFault, WriteRes.returned, WriteRes.wrote]

theorem put_cases (f : Nat → WriteRes) (k : Nat) (file b : Bytes) :
    put f k file b = (true, file ++ b, k + 1) ∨
      (f ≠ noFault ∧ ∃ t, put f k file b = (false, file ++ t, k + 1) ∧ t <+: b) := by
  unfold put
  cases h : f k with
  | all => exact Or.inl (by simp [WriteRes.returned, WriteRes.wrote])
  | part n =>
    by_cases hn : n < b.length
    · refine Or.inr ⟨(fun e => by rw [e] at h; cases h), b.take n, ?_, List.take_prefix _ _⟩
      have : ¬ min n b.length = b.length := by omega
      simp [WriteRes.returned, WriteRes.wrote, this]
    · refine Or.inl ?_
      have : min n b.length = b.length := by omega
      simp only [WriteRes.returned, WriteRes.wrote, this, decide_true]
      rw [List.take_of_length_le (by omega)]
  | fail => exact Or.inr ⟨(fun e => by rw [e] at h; cases h), [], by simp [WriteRes.returned, WriteRes.wrote], List.nil_prefix⟩

theorem putAll_cases (f : Nat → WriteRes) : ∀ (bs : List Bytes) (k : Nat) (file : Bytes),
    (∃ k', putAll f k file bs = (true, file ++ bs.flatten, k')) ∨
      (f ≠ noFault ∧ ∃ t k', putAll f k file bs = (false, file ++ t, k') ∧ t <+: bs.flatten)
  | [], k, file => Or.inl ⟨k, by simp [putAll]⟩
  | b :: bs, k, file => by
    rw [putAll]
    rcases put_cases f k file b with h | ⟨hf, t, h, ht⟩
    · rw [h]
      simp only
      rcases putAll_cases f bs (k + 1) (file ++ b) with ⟨k', e⟩ | ⟨hf, t, k', e, ht⟩
      · exact Or.inl ⟨k', by rw [e]; simp⟩
      · exact Or.inr ⟨hf, b ++ t, k', by rw [e, List.append_assoc], by
          rw [List.flatten_cons]
          exact (List.prefix_append_right_inj b).mpr ht⟩
    · rw [h]
      exact Or.inr ⟨hf, t, k + 1, rfl, by
        rw [List.flatten_cons]
        exact ht.trans (List.prefix_append _ _)⟩

/-! ## Streams -/

theorem csWrite_grows {σ : Type} (E : Enc σ) (s : CStrm σ) (b : Bytes) : s.file <+: (csWrite E s b).2.file := by
  unfold csWrite
  split
  · exact List.prefix_refl _
  split
  · exact List.prefix_refl _
  split
  · exact List.prefix_refl _
  · simp only
    split
    · exact List.prefix_append _ _
    · exact List.prefix_refl _

theorem csWrite_fd {σ : Type} (E : Enc σ) (s : CStrm σ) (b : Bytes) : (csWrite E s b).2.fd = s.fd := by
  unfold csWrite
  split
  · rfl
  split
  · rfl
  split <;> rfl

/-- A write under faults: the same as without, or the error of the system call. -/
theorem csWriteOn_cases {σ : Type} (f : Nat → WriteRes) (E : Enc σ) (s : CStrm σ) (hfd : s.fd = true) (k : Nat) (b : Bytes) :
    (∃ k', csWriteOn f E ⟨s, k⟩ b = ((csWrite E s b).1, ⟨(csWrite E s b).2, k'⟩)) ∨
      (f ≠ noFault ∧ ∃ w, csWriteOn f E ⟨s, k⟩ b = (some .io, w) ∧ w.s.file <+: (csWrite E s b).2.file) := by
  unfold csWriteOn csWrite
  by_cases h1 : s.finished = true
  · simp only [h1, if_true]
    exact Or.inl ⟨k, rfl⟩
  simp only [h1, Bool.false_eq_true, if_false]
  by_cases h2 : b.length = 0
  · simp only [h2, if_true]
    exact Or.inl ⟨k, rfl⟩
  simp only [h2, if_false]
  rcases hw : E.write s.st b with ⟨o, st, e⟩
  cases e with
  | some e => exact Or.inl ⟨k, rfl⟩
  | none =>
    simp only [hfd, if_true]
    by_cases h3 : ((s.data ++ o).drop s.pos).length = 0
    · rw [if_pos h3]
      have h4 : (s.data ++ o).drop s.pos = [] := List.length_eq_zero_iff.mp h3
      rw [h4, List.append_nil]
      exact Or.inl ⟨k, rfl⟩
    · rw [if_neg h3]
      rcases put_cases f k s.file ((s.data ++ o).drop s.pos) with h | ⟨hf, t, h, ht⟩
      · rw [h]
        exact Or.inl ⟨k + 1, rfl⟩
      · rw [h]
        exact Or.inr ⟨hf, _, rfl, (List.prefix_append_right_inj _).mpr ht⟩

theorem csFinishOn_cases {σ : Type} (f : Nat → WriteRes) (E : Enc σ) (s : CStrm σ) (hfd : s.fd = true) (k : Nat) :
    (∃ k', csFinishOn f E ⟨s, k⟩ = ((csFinish E s).1, ⟨(csFinish E s).2, k'⟩)) ∨
      (f ≠ noFault ∧ ∃ w, csFinishOn f E ⟨s, k⟩ = (.error .io, w) ∧ w.s.file <+: (csFinish E s).2.file) := by
  unfold csFinishOn csFinish
  by_cases h1 : s.finished = true
  · simp only [h1, if_true]
    exact Or.inl ⟨k, rfl⟩
  simp only [h1, Bool.false_eq_true, if_false]
  cases hfin : E.finish with
  | none => exact Or.inl ⟨k, rfl⟩
  | some fin =>
    simp only
    rcases hw : fin s.st with ⟨o, e⟩
    cases e with
    | some e => exact Or.inl ⟨k, rfl⟩
    | none =>
      simp only [hfd, if_true]
      by_cases h3 : ((s.data ++ o).drop s.pos).length = 0
      · rw [if_pos h3]
        have h4 : (s.data ++ o).drop s.pos = [] := List.length_eq_zero_iff.mp h3
        rw [h4, List.append_nil]
        exact Or.inl ⟨k, rfl⟩
      · rw [if_neg h3]
        rcases put_cases f k s.file ((s.data ++ o).drop s.pos) with h | ⟨hf, t, h, ht⟩
        · rw [h]
          exact Or.inl ⟨k + 1, rfl⟩
        · rw [h]
          exact Or.inr ⟨hf, _, rfl, (List.prefix_append_right_inj _).mpr ht⟩

/-- The wrapper with the number of the next write. -/
def Wrap.at {σ : Type} (w : Wrap σ) (k : Nat) : FWrap σ := ⟨⟨w.strm, k⟩, w.ulen, w.udata⟩

theorem wrWriteOn_cases {σ : Type} (f : Nat → WriteRes) (E : Enc σ) (w : Wrap σ) (hfd : w.strm.fd = true) (k : Nat) (b : Bytes) :
    (∃ k', wrWriteOn f E (w.at k) b = ((wrWrite E w b).1, (wrWrite E w b).2.at k')) ∨
      (f ≠ noFault ∧ ∃ v, wrWriteOn f E (w.at k) b = (some .io, v) ∧ v.strm.s.file <+: (wrWrite E w b).2.strm.file) := by
  unfold wrWriteOn wrWrite Wrap.at
  simp only
  by_cases h1 : w.ulen - w.udata.length > 0
  · simp only [h1, if_true]
    by_cases h2 : b.length = 0
    · simp only [h2, if_true]
      exact Or.inl ⟨k, rfl⟩
    simp only [h2, if_false]
    generalize hn : min (w.ulen - w.udata.length) b.length = n
    rcases put_cases f k w.strm.file (b.take n) with h | ⟨hf, t, h, ht⟩
    · rw [h]
      simp only
      rcases csWriteOn_cases f E { w.strm with file := w.strm.file ++ b.take n } hfd (k + 1) (b.drop n) with ⟨k', e⟩ | ⟨hf, v, e, hv⟩
      · rw [e]
        exact Or.inl ⟨k', rfl⟩
      · rw [e]
        exact Or.inr ⟨hf, _, rfl, hv⟩
    · rw [h]
      refine Or.inr ⟨hf, _, rfl, ?_⟩
      exact ((List.prefix_append_right_inj _).mpr ht).trans (csWrite_grows E { w.strm with file := w.strm.file ++ b.take n } (b.drop n))
  · simp only [h1, if_false]
    rcases csWriteOn_cases f E w.strm hfd k b with ⟨k', e⟩ | ⟨hf, v, e, hv⟩
    · rw [e]
      exact Or.inl ⟨k', rfl⟩
    · rw [e]
      exact Or.inr ⟨hf, _, rfl, hv⟩

theorem wrWrite_keeps {σ : Type} (E : Enc σ) (w : Wrap σ) (b : Bytes) :
    (wrWrite E w b).2.strm.fd = w.strm.fd ∧ w.strm.file <+: (wrWrite E w b).2.strm.file := by
  unfold wrWrite
  split
  · split
    · exact ⟨rfl, List.prefix_refl _⟩
    · simp only
      refine ⟨csWrite_fd E _ _, ?_⟩
      exact (List.prefix_append _ _).trans (csWrite_grows E { w.strm with
        file := w.strm.file ++ b.take (min (w.ulen - w.udata.length) b.length) } _)
  · exact ⟨csWrite_fd E _ _, csWrite_grows E _ _⟩

theorem wrWrites_keeps {σ : Type} (E : Enc σ) : ∀ (bs : List Bytes) (w v : Wrap σ), wrWrites E w bs = .ok v →
    v.strm.fd = w.strm.fd ∧ w.strm.file <+: v.strm.file
  | [], w, v, h => by
    cases h
    exact ⟨rfl, List.prefix_refl _⟩
  | b :: bs, w, v, h => by
    rw [wrWrites] at h
    have k1 := wrWrite_keeps E w b
    rcases hw : wrWrite E w b with ⟨e, u⟩
    rw [hw] at h k1
    cases e with
    | some e => cases h
    | none =>
      have k2 := wrWrites_keeps E bs u v h
      exact ⟨k2.1.trans k1.1, k1.2.trans k2.2⟩

/-- A series of writes. -/
theorem wrWritesOn_cases {σ : Type} (f : Nat → WriteRes) (E : Enc σ) : ∀ (bs : List Bytes) (w : Wrap σ) (k : Nat), w.strm.fd = true →
    match wrWrites E w bs with
    | .ok v => (∃ k', wrWritesOn f E (w.at k) bs = (none, v.at k')) ∨
        (f ≠ noFault ∧ ∃ u, wrWritesOn f E (w.at k) bs = (some .io, u) ∧ u.strm.s.file <+: v.strm.file)
    | .err e => ∃ e' u, wrWritesOn f E (w.at k) bs = (some e', u) ∧ (f = noFault → e' = e)
    | _ => False
  | [], w, k, _ => Or.inl ⟨k, rfl⟩
  | b :: bs, w, k, hfd => by
    rw [wrWrites, wrWritesOn]
    have k1 := wrWrite_keeps E w b
    rcases wrWriteOn_cases f E w hfd k b with ⟨k', e⟩ | ⟨hf, v, e, hv⟩
    · rw [e]
      rcases hw : wrWrite E w b with ⟨er, u⟩
      rw [hw] at k1
      cases er with
      | some er => exact ⟨er, _, rfl, fun _ => rfl⟩
      | none => exact wrWritesOn_cases f E bs u k' (k1.1.trans hfd)
    · rw [e]
      rcases hw : wrWrite E w b with ⟨er, u⟩
      rw [hw] at hv
      cases er with
      | some er => exact ⟨.io, _, rfl, fun h => absurd h hf⟩
      | none =>
        simp only
        have k2 := wrWritesOn_cases f E bs u 0 (by rw [hw] at k1; exact k1.1.trans hfd)
        cases hr : wrWrites E u bs with
        | ok x => exact Or.inr ⟨hf, v, rfl, hv.trans (wrWrites_keeps E bs u x hr).2⟩
        | err e => exact ⟨.io, v, rfl, fun h => absurd h hf⟩
        | ub => rw [hr] at k2; exact k2.elim
        | loop => rw [hr] at k2; exact k2.elim

theorem csFinish_file {σ : Type} (E : Enc σ) (s : CStrm σ) : s.file <+: (csFinish E s).2.file := by
  unfold csFinish
  split
  · exact List.prefix_refl _
  split
  · exact List.prefix_refl _
  split
  · exact List.prefix_refl _
  · simp only
    split
    · exact List.prefix_append _ _
    · exact List.prefix_refl _

/-- Everything through the wrapper. -/
theorem wrAllOn_cases {σ : Type} (f : Nat → WriteRes) (E : Enc σ) (ulen k : Nat) (file : Bytes) (bs : List Bytes) :
    match wrAll E ulen file bs with
    | .ok (d, out) => file <+: out ∧ (wrAllOn f E ulen k file bs = (.ok d, .written out) ∨
        (f ≠ noFault ∧ ∃ b, wrAllOn f E ulen k file bs = (.err .io, .written b) ∧ b <+: out))
    | .err e => ∃ e' l, wrAllOn f E ulen k file bs = (.err e', l) ∧ (f = noFault → e' = e)
    | .ub => ∃ l, wrAllOn f E ulen k file bs = (.ub, l) ∨ (f ≠ noFault ∧ ∃ e, wrAllOn f E ulen k file bs = (.err e, l))
    | .loop => False := by
  have h := wrWritesOn_cases f E bs (wrInit E ulen file) k rfl
  unfold wrAll wrAllOn
  have hat : (⟨⟨csInit E true file, k⟩, ulen, []⟩ : FWrap σ) = (wrInit E ulen file).at k := rfl
  rw [hat]
  cases hw : wrWrites E (wrInit E ulen file) bs with
  | err e =>
    rw [hw] at h
    obtain ⟨e', u, h1, h2⟩ := h
    rw [h1, Out.bind_err]
    exact ⟨e', _, rfl, h2⟩
  | ub => rw [hw] at h; exact h.elim
  | loop => rw [hw] at h; exact h.elim
  | ok v =>
    rw [hw] at h
    simp only at h
    rw [Out.bind_ok]
    have k1 := wrWrites_keeps E bs _ v hw
    have hfd : v.strm.fd = true := k1.1
    have hfile : file <+: v.strm.file := k1.2
    have k2 := csFinish_file E v.strm
    -- the end without faults
    rcases h with ⟨k', h⟩ | ⟨hf, u, h, hu⟩
    · rw [h]
      simp only
      unfold wrFinish wrFinishOn
      rcases csFinishOn_cases f E v.strm hfd k' with ⟨k'', e⟩ | ⟨hf, x, e, hx⟩
      · have e' : csFinishOn f E (v.at k').strm = ((csFinish E v.strm).1, ⟨(csFinish E v.strm).2, k''⟩) := e
        rw [e']
        rcases hc : csFinish E v.strm with ⟨r, s⟩
        rw [hc] at k2
        cases r with
        | error e => exact ⟨e, _, rfl, fun _ => rfl⟩
        | ok d =>
          simp only [Wrap.at]
          by_cases hu : v.udata.length < v.ulen
          · simp only [hu, if_true]
            exact ⟨_, Or.inl rfl⟩
          · simp only [hu, if_false]
            exact ⟨hfile.trans k2, Or.inl trivial⟩
      · have e' : csFinishOn f E (v.at k').strm = (.error .io, x) := e
        rw [e']
        rcases hc : csFinish E v.strm with ⟨r, s⟩
        rw [hc] at k2 hx
        cases r with
        | error e => exact ⟨.io, _, rfl, fun h => absurd h hf⟩
        | ok d =>
          simp only
          by_cases hu : v.udata.length < v.ulen
          · simp only [hu, if_true]
            exact ⟨_, Or.inr ⟨hf, .io, rfl⟩⟩
          · simp only [hu, if_false]
            exact ⟨hfile.trans k2, Or.inr ⟨hf, _, rfl, hx⟩⟩
    · rw [h]
      simp only
      unfold wrFinish
      rcases hc : csFinish E v.strm with ⟨r, s⟩
      rw [hc] at k2
      cases r with
      | error e => exact ⟨.io, _, rfl, fun h => absurd h hf⟩
      | ok d =>
        simp only
        by_cases hul : v.udata.length < v.ulen
        · simp only [hul, if_true]
          exact ⟨_, Or.inr ⟨hf, .io, rfl⟩⟩
        · simp only [hul, if_false]
          exact ⟨hfile.trans k2, Or.inr ⟨hf, _, rfl, hu.trans k2⟩⟩


/-! ## The parts of applying -/

/-- What the faultless run writes in the body of `drpm_apply`. -/
def ApplyBody.plain {σ : Type} (env : ApplyEnv σ) (file : Bytes) (d : Delta) : ApplyBody → Out (Bytes × Bytes)
  | .same r => writeOld env d r
  | .diff ws => applyWrite env file d ws

theorem Out.assoc {α β γ : Type} (x : Out α) (f : α → Out β) (g : β → Out γ) :
    ((x >>= f) >>= g) = x >>= fun a => f a >>= g := by
  cases x <;> rfl

theorem planDiff_on {σ : Type} (env : ApplyEnv σ) (file : Bytes) (d : Delta) (old : OldData) (files : List FileInfo)
    (places : List CpioFile) (cleanup : Nat) : planDiff env file d old files places cleanup =
      planDiffOn env d old files places cleanup >>= fun b => .ok (b.plain env file d) := by
  unfold planDiff planDiffOn
  rw [Out.assoc]
  refine congrArg _ (funext fun _ => ?_)
  rw [Out.assoc]
  refine congrArg _ (funext fun _ => ?_)
  rw [Out.assoc]
  refine congrArg _ (funext fun _ => ?_)
  rw [Out.bind_ok, ApplyBody.plain]

theorem planBody_on {σ : Type} (env : ApplyEnv σ) (file : Bytes) (d : Delta) (old : OldData) (files : List FileInfo)
    (places : List CpioFile) (cleanup : Nat) : planBody env file d old files places cleanup =
      planBodyOn env d old files places cleanup >>= fun b => .ok (b.plain env file d) := by
  unfold planBody planBodyOn
  generalize isNoDiff d = nd
  cases nd with
  | false => exact planDiff_on env file d old files places cleanup
  | true =>
    cases old with
    | rpm r => rw [Out.bind_ok, ApplyBody.plain]
    | files disk => exact planDiff_on env file d (.files disk) files places cleanup

theorem planApply_on {σ : Type} (env : ApplyEnv σ) (file : Bytes) (src : OldSrc) (cleanup : Nat) :
    planApply env file src cleanup =
      planApplyOn env file src cleanup >>= fun p => .ok ⟨p.1, p.2.1, p.2.2.plain env file p.1⟩ := by
  unfold planApply planApplyOn
  rw [Out.assoc]
  refine congrArg _ (funext fun d => ?_)
  rw [Out.assoc]
  refine congrArg _ (funext fun po => ?_)
  obtain ⟨p, old⟩ := po
  simp only
  rw [Out.assoc]
  refine congrArg _ (funext fun _ => ?_)
  rw [Out.assoc]
  refine congrArg _ (funext fun fp => ?_)
  obtain ⟨files, places⟩ := fp
  simp only
  rw [Out.assoc]
  refine congrArg _ (funext fun sig => ?_)
  rw [planBody_on, Out.assoc, Out.assoc]
  refine congrArg _ (funext fun b => ?_)
  rw [Out.bind_ok, Out.bind_ok]

/-- How a run under faults (`on`) stands to the run without (`plain`: file, hashed bytes). -/
def BodySim (clean : Prop) (plain : Out (Bytes × Bytes)) (on : Out Bytes × Left) : Prop :=
  match plain with
  | .ok (out, hashed) => on = (.ok hashed, .written out) ∨ (¬ clean ∧ ∃ e b, on = (.err e, .written b) ∧ b <+: out)
  | .err e => ∃ e' l, on = (.err e', l) ∧ (clean → e' = e)
  | .ub => ∃ l, on = (.ub, l) ∨ (¬ clean ∧ ∃ e, on = (.err e, l))
  | .loop => ∃ l, on = (.loop, l) ∨ (¬ clean ∧ ∃ e, on = (.err e, l))

theorem BodySim.weaken {c : Prop} {p : Out (Bytes × Bytes)} {o : Out Bytes × Left} {c' : Prop} (h : BodySim c p o) (hc : c' → c) :
    BodySim c' p o := by
  unfold BodySim at *
  split at h
  · rcases h with h | ⟨n, h⟩
    · exact Or.inl h
    · exact Or.inr ⟨fun x => n (hc x), h⟩
  · obtain ⟨e', l, h, h2⟩ := h
    exact ⟨e', l, h, fun x => h2 (hc x)⟩
  · obtain ⟨l, h | ⟨n, h⟩⟩ := h
    · exact ⟨l, Or.inl h⟩
    · exact ⟨l, Or.inr ⟨fun x => n (hc x), h⟩⟩
  · obtain ⟨l, h | ⟨n, h⟩⟩ := h
    · exact ⟨l, Or.inl h⟩
    · exact ⟨l, Or.inr ⟨fun x => n (hc x), h⟩⟩

/-- A write that fails, with a file that begins what would have been written. -/
theorem BodySim.failed {f : Nat → WriteRes} (hf : f ≠ noFault) (e : Err) (b : Bytes) (plain : Out (Bytes × Bytes))
    (h : ∀ o x, plain = .ok (o, x) → b <+: o) : BodySim (f = noFault) plain (.err e, .written b) := by
  unfold BodySim
  split
  · next o x => exact Or.inr ⟨hf, e, b, rfl, h o x rfl⟩
  · exact ⟨e, _, rfl, fun x => absurd x hf⟩
  · exact ⟨_, Or.inr ⟨hf, e, rfl⟩⟩
  · exact ⟨_, Or.inr ⟨hf, e, rfl⟩⟩

theorem compressNewOn_cases {σ : Type} (f : Nat → WriteRes) (env : ApplyEnv σ) (d : Delta) (k : Nat) (file : Bytes) (bs : List Bytes) :
    match compressNew env d file bs with
    | .ok (x, out) => file <+: out ∧ (compressNewOn f env d k file bs = (.ok x, .written out) ∨
        (f ≠ noFault ∧ ∃ b, compressNewOn f env d k file bs = (.err .io, .written b) ∧ b <+: out))
    | .err e => ∃ e' l, compressNewOn f env d k file bs = (.err e', l) ∧ (f = noFault → e' = e)
    | .ub => ∃ l, compressNewOn f env d k file bs = (.ub, l) ∨ (f ≠ noFault ∧ ∃ e, compressNewOn f env d k file bs = (.err e, l))
    | .loop => False := by
  unfold compressNew compressNewOn
  by_cases h : d.tgtComp = 0
  · simp only [h, if_true]
    exact wrAllOn_cases f plainEnc d.tgtHeaderLen k file bs
  · simp only [h, if_false]
    exact wrAllOn_cases f (env.enc d.tgtComp d.tgtCompLevel) d.tgtHeaderLen k file bs

/-- The part of `applyWrite` after the header. -/
def applyRest {σ : Type} (env : ApplyEnv σ) (d : Delta) (header file : Bytes) (ws : Out (List Bytes)) : Out (Bytes × Bytes) := do
  strmOpen d.tgtComp d.tgtCompLevel
  let ws ← ws
  let (data, out) ← compressNew env d file ws
  .ok (out, (if noFullMd5 d then [] else d.tgtLeadsig) ++ header ++ data)

theorem applyRest_grows {σ : Type} (env : ApplyEnv σ) (d : Delta) (header file : Bytes) (ws : Out (List Bytes)) (o x : Bytes)
    (h : applyRest env d header file ws = .ok (o, x)) : file <+: o := by
  unfold applyRest at h
  obtain ⟨_, _, h⟩ := Out.bind_eq_ok.mp h
  obtain ⟨bs, _, h⟩ := Out.bind_eq_ok.mp h
  obtain ⟨⟨data, out⟩, h1, h⟩ := Out.bind_eq_ok.mp h
  have k := compressNewOn_cases noFault env d 0 file bs
  rw [h1] at k
  cases h
  exact k.1

theorem applyDataOn_sim {σ : Type} (f : Nat → WriteRes) (env : ApplyEnv σ) (d : Delta) (header : Bytes) (k : Nat) (file : Bytes)
    (ws : Out (List Bytes)) : BodySim (f = noFault) (applyRest env d header file ws) (applyDataOn f env d header k file ws) := by
  unfold applyRest applyDataOn
  cases strmOpen d.tgtComp d.tgtCompLevel with
  | err e => exact ⟨e, _, rfl, fun _ => rfl⟩
  | ub => exact ⟨_, Or.inl rfl⟩
  | loop => exact ⟨_, Or.inl rfl⟩
  | ok _ =>
    cases ws with
    | err e => exact ⟨e, _, rfl, fun _ => rfl⟩
    | ub => exact ⟨_, Or.inl rfl⟩
    | loop => exact ⟨_, Or.inl rfl⟩
    | ok bs =>
      simp only [Out.bind_ok]
      have h := compressNewOn_cases f env d k file bs
      cases hc : compressNew env d file bs with
      | ok p =>
        obtain ⟨x, out⟩ := p
        rw [hc] at h
        rcases h with ⟨_, h | ⟨hf, b, h, hb⟩⟩
        · rw [h]
          exact Or.inl rfl
        · rw [h]
          exact Or.inr ⟨hf, _, _, rfl, hb⟩
      | err e =>
        rw [hc] at h
        obtain ⟨e', l, h, h2⟩ := h
        rw [h]
        exact ⟨e', l, rfl, h2⟩
      | ub =>
        rw [hc] at h
        obtain ⟨l, h | ⟨hf, e, h⟩⟩ := h
        · rw [h]
          exact ⟨l, Or.inl rfl⟩
        · rw [h]
          exact ⟨l, Or.inr ⟨hf, e, rfl⟩⟩
      | loop => rw [hc] at h; exact h.elim

theorem applyWrite_rest {σ : Type} (env : ApplyEnv σ) (file : Bytes) (d : Delta) (ws : Out (List Bytes)) :
    applyWrite env file d ws = applyHeader env file d >>= fun header => applyRest env d header (d.tgtLeadsig ++ header) ws := rfl

theorem applyWriteOn_sim {σ : Type} (f : Nat → WriteRes) (env : ApplyEnv σ) (file : Bytes) (d : Delta) (ws : Out (List Bytes)) :
    BodySim (f = noFault) (applyWrite env file d ws) (applyWriteOn f env file d ws) := by
  rw [applyWrite_rest]
  unfold applyWriteOn
  rcases put_cases f 0 [] d.tgtLeadsig with h | ⟨hf, t, h, ht⟩
  · rw [h]
    simp only [List.nil_append]
    unfold applyHeaderOn applyHeader
    by_cases hr : d.type = .rpmonly
    · simp only [hr, if_true, Out.bind_ok, List.append_nil]
      exact applyDataOn_sim f env d [] 1 d.tgtLeadsig ws
    · simp only [hr, if_false]
      cases env.tgtHeader file with
      | err e => exact ⟨e, _, rfl, fun _ => rfl⟩
      | ub => exact ⟨_, Or.inl rfl⟩
      | loop => exact ⟨_, Or.inl rfl⟩
      | ok header =>
        simp only [Out.bind_ok]
        rcases put_cases f 1 d.tgtLeadsig header with h | ⟨hf, t, h, ht⟩
        · rw [h]
          exact applyDataOn_sim f env d header 2 _ ws
        · rw [h]
          exact BodySim.failed hf _ _ _ fun o x e =>
            ((List.prefix_append_right_inj _).mpr ht).trans (applyRest_grows env d header _ ws o x e)
  · rw [h]
    simp only [List.nil_append]
    refine BodySim.failed hf _ _ _ fun o x e => ?_
    obtain ⟨header, _, e⟩ := Out.bind_eq_ok.mp e
    exact ht.trans ((List.prefix_append _ header).trans (applyRest_grows env d header _ ws o x e))

theorem writeOldOn_sim {σ : Type} (f : Nat → WriteRes) (op : Bool) (env : ApplyEnv σ) (d : Delta) (r : Rpm) :
    BodySim (f = noFault ∧ op = true) (writeOld env d r) (writeOldOn f op env d r) := by
  unfold writeOldOn
  cases op with
  | false =>
    simp only [if_true]
    unfold BodySim
    split
    · exact Or.inr ⟨nofun, _, _, rfl, List.nil_prefix⟩
    · exact ⟨_, _, rfl, fun h => by cases h.2⟩
    · exact ⟨_, Or.inr ⟨nofun, _, rfl⟩⟩
    · exact ⟨_, Or.inr ⟨nofun, _, rfl⟩⟩
  | true =>
    simp only [Bool.true_eq_false, if_false, and_true]
    unfold writeOld
    cases env.exportSig d.tgtLeadsig with
    | err e => exact ⟨e, _, rfl, fun _ => rfl⟩
    | ub => exact ⟨_, Or.inl rfl⟩
    | loop => exact ⟨_, Or.inl rfl⟩
    | ok ls =>
      have hfl : [ls.take 96, ls.drop 96, r.header, r.archive].flatten = ls ++ r.header ++ r.archive := by
        simp only [List.flatten_cons, List.flatten_nil, List.append_nil]
        rw [← List.append_assoc, List.take_append_drop, List.append_assoc]
      simp only [Out.bind_ok]
      rcases putAll_cases f [ls.take 96, ls.drop 96, r.header, r.archive] 0 [] with ⟨k', h⟩ | ⟨hf, t, k', h, ht⟩
      · rw [h, hfl]
        exact Or.inl rfl
      · rw [hfl] at ht
        rw [h]
        exact BodySim.failed hf _ _ _ fun o x e => by
          cases e
          exact ht

theorem writeBodyOn_sim {σ : Type} (f : ApplyFaults) (env : ApplyEnv σ) (file : Bytes) (d : Delta) (body : ApplyBody) :
    BodySim (f.writes = noFault ∧ f.reopen = true) (body.plain env file d) (writeBodyOn f env file d body) := by
  cases body with
  | same r => exact writeOldOn_sim f.writes f.reopen env d r
  | diff ws => exact (applyWriteOn_sim f.writes env file d ws).weaken (·.1)

end Drpm
