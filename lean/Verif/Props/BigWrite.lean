import Verif.Props.WriteFault
/-!
# What is too large for one write (C98)

`write(2)` is allowed to take fewer bytes than it is given, and on Linux never takes more than
0x7ffff000 (2147479552). The code writes each piece with one call and treats a short count as an error.
-/

namespace Drpm

/-- A system in which nothing fails, but no `write` takes more than `max` bytes. -/
def limited (max : Nat) : Nat → WriteRes := fun _ => .part max

/-- The limit of Linux, write(2): "will transfer at most 0x7ffff000 bytes". -/
def linuxMax : Nat := 0x7ffff000

/-- Nothing fails while a delta is made; `n` bytes are enough for the sequence file. -/
def MakeFaults.limited (max n : Nat) : MakeFaults := ⟨none, true, true, Drpm.limited max, true, true, true, n⟩

/-- Nothing fails while a delta is applied. -/
def ApplyFaults.limited (max : Nat) : ApplyFaults := ⟨none, Drpm.limited max, true⟩

/-! ## One write after the other -/

theorem put_limited (L k : Nat) (file b : Bytes) :
    put (limited L) k file b = put noFault k file b ∨
      (L < b.length ∧ ∃ out, put (limited L) k file b = (false, out, k + 1) ∧ L ≤ out.length) := by
  by_cases h : L < b.length
  · refine Or.inr ⟨h, file ++ b.take L, ?_, ?_⟩
    · have : ¬ min L b.length = b.length := by omega
      simp [put, limited, WriteRes.returned, WriteRes.wrote, this]
    · rw [List.length_append, List.length_take]
      omega
  · refine Or.inl ?_
    have h1 : min L b.length = b.length := by omega
    have h2 : b.take L = b := List.take_of_length_le (by omega)
    simp [put, limited, noFault, WriteRes.returned, WriteRes.wrote, h1, h2]

theorem putAll_limited (L : Nat) : ∀ (bs : List Bytes) (k : Nat) (file : Bytes),
    putAll (limited L) k file bs = putAll noFault k file bs ∨
      ∃ out k', putAll (limited L) k file bs = (false, out, k') ∧ L ≤ out.length
  | [], k, file => Or.inl rfl
  | b :: bs, k, file => by
    rw [putAll, putAll]
    rcases put_limited L k file b with h | ⟨_, out, h, ho⟩
    · rw [h, put_noFault]
      exact putAll_limited L bs (k + 1) (file ++ b)
    · rw [h]
      exact Or.inr ⟨out, k + 1, rfl, ho⟩

/-- A piece that is too large makes the writes fail. -/
theorem putAll_limited_big (L : Nat) : ∀ (bs : List Bytes) (k : Nat) (file : Bytes), (∃ b ∈ bs, L < b.length) →
    ∃ out k', putAll (limited L) k file bs = (false, out, k')
  | [], _, _, ⟨_, hb, _⟩ => by cases hb
  | a :: bs, k, file, ⟨b, hb, hl⟩ => by
    rw [putAll]
    rcases put_limited L k file a with h | ⟨_, out, h, _⟩
    · rw [h, put_noFault]
      rcases List.mem_cons.1 hb with rfl | hb
      · exfalso
        have : ¬ min L b.length = b.length := by omega
        simp [put, limited, noFault, WriteRes.returned, WriteRes.wrote, this] at h
      · exact putAll_limited_big L bs (k + 1) (file ++ a) ⟨b, hb, hl⟩
    · rw [h]
      exact ⟨out, k + 1, rfl⟩

/-! ## Making -/

theorem writeDeltaOn_limited (L n sigLen : Nat) (d : Delta) (head z : Bytes) :
    writeDeltaOn (.limited L n) sigLen d head z = (.ok (), .written (writeHead d head ++ z)) ∨
      ∃ out, writeDeltaOn (.limited L n) sigLen d head z = (.err .io, .written out) ∧ L ≤ out.length := by
  have hcl : writeDeltaOn ⟨none, true, true, noFault, true, true, true, n⟩ sigLen d head z = (.ok (), .written (writeHead d head ++ z)) := by
    rcases writeDeltaOn_cases ⟨none, true, true, noFault, true, true, true, n⟩ sigLen d head z with h | ⟨h, _⟩
    · exact h
    · exact absurd ⟨rfl, rfl, rfl, rfl⟩ h
  rw [← hcl]
  unfold writeDeltaOn MakeFaults.limited
  simp only [Bool.true_eq_false, if_false]
  cases d.type with
  | rpmonly =>
    simp only
    rcases putAll_limited L (rpmonlyPieces d z) 0 [] with h | ⟨out, k', h, ho⟩
    · rw [h]
      exact Or.inl rfl
    · rw [h]
      exact Or.inr ⟨out, rfl, ho⟩
  | standard =>
    simp only
    rcases putAll_limited L [head.take 96, (head.drop 96).take sigLen, (head.drop 96).drop sigLen] 0 [] with h | ⟨out, k', h, ho⟩
    · rw [h]
      rcases putAll noFault 0 [] [head.take 96, (head.drop 96).take sigLen, (head.drop 96).drop sigLen] with ⟨b, file, k⟩
      cases b with
      | false => exact Or.inl rfl
      | true =>
        simp only
        rcases put_limited L k file z with h | ⟨_, out, h, ho⟩
        · rw [h]
          exact Or.inl rfl
        · rw [h]
          exact Or.inr ⟨out, rfl, ho⟩
    · rw [h]
      exact Or.inr ⟨out, rfl, ho⟩

/-- C98, making (proved part): a delta of less than `max` bytes is written completely, and the sequence file
    with it. Missing: larger deltas, see `C98_violated_make`. -/
theorem C98_make_partial (max sigLen : Nat) (env : MakeEnv) (o : Opts Bytes) (old new : Option (Out Rpm)) (delta line : Bytes)
    (h : drpmMake env o old new = .ok delta) (hl : makeSeqFile env o old new = .ok line) (hmax : delta.length < max) :
    drpmMakeOn (.limited max line.length) sigLen env o old new =
      (.ok (), .written delta, if o.seqfile = none then .untouched else .written line) := by
  have h0 := h
  rw [drpmMake_parts] at h0
  obtain ⟨⟨d, head, z⟩, h1, h2⟩ := Out.bind_eq_ok.mp h0
  cases h2
  unfold makeSeqFile at hl
  rw [h1, Out.bind_ok] at hl
  unfold drpmMakeOn MakeFaults.limited
  rw [h1]
  simp only
  unfold writeBothOn
  have hpre := (C79_prefix (.limited max line.length) sigLen env o old new _ h).1
  rcases writeDeltaOn_limited max line.length sigLen d head z with e | ⟨out, e, ho⟩
  · unfold MakeFaults.limited at e
    rw [e]
    simp only
    cases hs : o.seqfile with
    | none => simp
    | some s =>
      simp only [Option.isSome_some, if_true, reduceCtorEq, if_false]
      unfold writeSeqOn
      rw [hl]
      simp only [Bool.true_eq_false, if_false, List.take_length]
  · exfalso
    have hx : (drpmMakeOn (.limited max line.length) sigLen env o old new).2.1 = .written out := by
      unfold drpmMakeOn
      rw [show (MakeFaults.limited max line.length).early = none from rfl, h1]
      simp only
      unfold writeBothOn
      rw [e]
    rw [hx] at hpre
    rcases hpre with hp | ⟨p, hp, hp2⟩
    · cases hp
    · cases hp
      have := hp2.length_le
      omega

/-- Of few pieces that are small the sum is small. -/
theorem flatten_small (L : Nat) : ∀ bs : List Bytes, (∀ b ∈ bs, b.length ≤ L) → bs.flatten.length ≤ bs.length * L
  | [], _ => Nat.zero_le _
  | b :: bs, h => by
    have h1 := h b (List.mem_cons_self ..)
    have h2 := flatten_small L bs (fun b hb => h b (List.mem_cons_of_mem _ hb))
    rw [List.flatten_cons, List.length_append, List.length_cons, Nat.add_mul]
    omega

/-- C98 is violated when a delta is made: if the compressed part has more than `max` bytes, `drpm_make` reports
    an input/output error although nothing failed. -/
theorem C98_violated_part (max n sigLen : Nat) (env : MakeEnv) (o : Opts Bytes) (old new : Option (Out Rpm)) (d : Delta) (head z : Bytes)
    (h : makeParts env o old new = .ok (d, head, z)) (hz : max < z.length) :
    (drpmMakeOn (.limited max n) sigLen env o old new).1 = .err .io := by
  unfold drpmMakeOn MakeFaults.limited
  rw [h]
  simp only
  unfold writeBothOn writeDeltaOn
  simp only [Bool.true_eq_false, if_false]
  cases d.type with
  | rpmonly =>
    simp only
    obtain ⟨out, k', e⟩ := putAll_limited_big max (rpmonlyPieces d z) 0 [] ⟨z, by simp [rpmonlyPieces], hz⟩
    rw [e]
  | standard =>
    simp only
    rcases putAll (limited max) 0 [] [head.take 96, (head.drop 96).take sigLen, (head.drop 96).drop sigLen] with ⟨b, file, k⟩
    cases b with
    | false => rfl
    | true =>
      simp only
      obtain ⟨out, k', e⟩ := putAll_limited_big max [z] k file ⟨z, by simp, hz⟩
      have : ∃ o, put (limited max) k file z = (false, o, k + 1) := by
        rcases put_limited max k file z with e' | ⟨_, o, e', _⟩
        · rw [putAll, e', put_noFault] at e
          cases e
        · exact ⟨o, e'⟩
      obtain ⟨o, e'⟩ := this
      rw [e']

/-- C98 is violated when a delta is made: every delta of more than `7 * max` bytes can be made, but when `write`
    takes at most `max` bytes then `drpm_make` always reports an input/output error, although nothing failed. -/
theorem C98_violated_make (max n sigLen : Nat) (env : MakeEnv) (o : Opts Bytes) (old new : Option (Out Rpm)) (delta : Bytes)
    (h : drpmMake env o old new = .ok delta) (hbig : 7 * max < delta.length) :
    (drpmMakeOn (.limited max n) sigLen env o old new).1 = .err .io := by
  rw [drpmMake_parts] at h
  obtain ⟨⟨d, head, z⟩, h1, h2⟩ := Out.bind_eq_ok.mp h
  cases h2
  by_cases hz : max < z.length
  · exact C98_violated_part max n sigLen env o old new d head z h1 hz
  unfold drpmMakeOn MakeFaults.limited
  rw [h1]
  simp only
  unfold writeBothOn writeDeltaOn
  simp only [Bool.true_eq_false, if_false]
  simp only [writeHead] at hbig
  cases ht : d.type with
  | rpmonly =>
    simp only [ht] at hbig ⊢
    have hex : ∃ b ∈ rpmonlyPieces d z, max < b.length := by
      refine Classical.byContradiction fun hn => ?_
      have := flatten_small max (rpmonlyPieces d z) (fun b hb => Nat.le_of_not_lt fun hc => hn ⟨b, hb, hc⟩)
      simp only [rpmonlyPieces, List.flatten_cons, List.flatten_nil, List.length_append, List.length_cons, List.length_nil,
        writeCStr, writeBuf] at this hbig
      omega
    obtain ⟨out, k', e⟩ := putAll_limited_big max (rpmonlyPieces d z) 0 [] hex
    rw [e]
  | standard =>
    simp only [ht] at hbig ⊢
    have hex : ∃ b ∈ [head.take 96, (head.drop 96).take sigLen, (head.drop 96).drop sigLen], max < b.length := by
      refine Classical.byContradiction fun hn => ?_
      have := flatten_small max [head.take 96, (head.drop 96).take sigLen, (head.drop 96).drop sigLen]
        (fun b hb => Nat.le_of_not_lt fun hc => hn ⟨b, hb, hc⟩)
      simp only [List.flatten_cons, List.flatten_nil, List.length_append, List.length_cons, List.length_nil, List.length_take,
        List.length_drop] at this hbig
      omega
    obtain ⟨out, k', e⟩ := putAll_limited_big max _ 0 [] hex
    rw [e]

/-! ## Applying -/

/-- Under the limit: the same as without, or an error after at least `L` bytes. -/
def SameOr {α : Type} (L : Nat) (x y : Out α × Left) : Prop :=
  x = y ∨ ∃ out, x = (.err .io, .written out) ∧ L ≤ out.length

theorem csWriteOn_limited {σ : Type} (L : Nat) (E : Enc σ) (w : FStrm σ) (b : Bytes) :
    csWriteOn (limited L) E w b = csWriteOn noFault E w b ∨
      ∃ v, csWriteOn (limited L) E w b = (some .io, v) ∧ L ≤ v.s.file.length := by
  unfold csWriteOn
  split
  · exact Or.inl rfl
  split
  · exact Or.inl rfl
  rcases E.write w.s.st b with ⟨o, st, e⟩
  cases e with
  | some e => exact Or.inl rfl
  | none =>
    simp only
    split
    · exact Or.inl rfl
    rcases put_limited L w.k w.s.file ((w.s.data ++ o).drop w.s.pos) with h | ⟨_, out, h, ho⟩
    · rw [h]
      exact Or.inl rfl
    · rw [h]
      exact Or.inr ⟨_, rfl, ho⟩

theorem csFinishOn_limited {σ : Type} (L : Nat) (E : Enc σ) (w : FStrm σ) :
    csFinishOn (limited L) E w = csFinishOn noFault E w ∨
      ∃ v, csFinishOn (limited L) E w = (.error .io, v) ∧ L ≤ v.s.file.length := by
  unfold csFinishOn
  split
  · exact Or.inl rfl
  cases E.finish with
  | none => exact Or.inl rfl
  | some fin =>
    simp only
    rcases fin w.s.st with ⟨o, e⟩
    cases e with
    | some e => exact Or.inl rfl
    | none =>
      simp only
      split
      · exact Or.inl rfl
      rcases put_limited L w.k w.s.file ((w.s.data ++ o).drop w.s.pos) with h | ⟨_, out, h, ho⟩
      · rw [h]
        exact Or.inl rfl
      · rw [h]
        exact Or.inr ⟨_, rfl, ho⟩

theorem wrWriteOn_limited {σ : Type} (L : Nat) (E : Enc σ) (w : FWrap σ) (b : Bytes) :
    wrWriteOn (limited L) E w b = wrWriteOn noFault E w b ∨
      ∃ v, wrWriteOn (limited L) E w b = (some .io, v) ∧ L ≤ v.strm.s.file.length := by
  unfold wrWriteOn
  split
  · split
    · exact Or.inl rfl
    rcases put_limited L w.strm.k w.strm.s.file (b.take (min (w.ulen - w.udata.length) b.length)) with h | ⟨_, out, h, ho⟩
    · rw [h, put_noFault]
      simp only
      rcases csWriteOn_limited L E ⟨{ w.strm.s with file := w.strm.s.file ++ b.take (min (w.ulen - w.udata.length) b.length) }, w.strm.k + 1⟩
        (b.drop (min (w.ulen - w.udata.length) b.length)) with h | ⟨v, h, hv⟩
      · rw [h]
        exact Or.inl rfl
      · rw [h]
        exact Or.inr ⟨_, rfl, hv⟩
    · rw [h]
      exact Or.inr ⟨_, rfl, ho⟩
  · simp only
    rcases csWriteOn_limited L E w.strm b with h | ⟨v, h, hv⟩
    · rw [h]
      exact Or.inl rfl
    · rw [h]
      exact Or.inr ⟨_, rfl, hv⟩

theorem wrWritesOn_limited {σ : Type} (L : Nat) (E : Enc σ) : ∀ (bs : List Bytes) (w : FWrap σ),
    wrWritesOn (limited L) E w bs = wrWritesOn noFault E w bs ∨
      ∃ v, wrWritesOn (limited L) E w bs = (some .io, v) ∧ L ≤ v.strm.s.file.length
  | [], w => Or.inl rfl
  | b :: bs, w => by
    rw [wrWritesOn, wrWritesOn]
    rcases wrWriteOn_limited L E w b with h | ⟨v, h, hv⟩
    · rw [h]
      rcases wrWriteOn noFault E w b with ⟨e, v⟩
      cases e with
      | some e => exact Or.inl rfl
      | none => exact wrWritesOn_limited L E bs v
    · rw [h]
      exact Or.inr ⟨v, rfl, hv⟩

theorem wrAllOn_limited {σ : Type} (L : Nat) (E : Enc σ) (ulen k : Nat) (file : Bytes) (bs : List Bytes) :
    SameOr L (wrAllOn (limited L) E ulen k file bs) (wrAllOn noFault E ulen k file bs) := by
  unfold wrAllOn
  rcases wrWritesOn_limited L E bs ⟨⟨csInit E true file, k⟩, ulen, []⟩ with h | ⟨v, h, hv⟩
  · rw [h]
    rcases wrWritesOn noFault E ⟨⟨csInit E true file, k⟩, ulen, []⟩ bs with ⟨e, w⟩
    cases e with
    | some e => exact Or.inl rfl
    | none =>
      simp only
      unfold wrFinishOn
      rcases csFinishOn_limited L E w.strm with h | ⟨v, h, hv⟩
      · rw [h]
        exact Or.inl rfl
      · rw [h]
        exact Or.inr ⟨_, rfl, hv⟩
  · rw [h]
    exact Or.inr ⟨_, rfl, hv⟩

theorem applyDataOn_limited {σ : Type} (L : Nat) (env : ApplyEnv σ) (d : Delta) (header : Bytes) (k : Nat) (file : Bytes) (ws : Out (List Bytes)) :
    SameOr L (applyDataOn (limited L) env d header k file ws) (applyDataOn noFault env d header k file ws) := by
  unfold applyDataOn
  split
  · split
    · next ws =>
      have hc : SameOr L (compressNewOn (limited L) env d k file ws) (compressNewOn noFault env d k file ws) := by
        unfold compressNewOn
        split
        · exact wrAllOn_limited L plainEnc d.tgtHeaderLen k file ws
        · exact wrAllOn_limited L (env.enc d.tgtComp d.tgtCompLevel) d.tgtHeaderLen k file ws
      rcases hc with h | ⟨out, h, ho⟩
      · rw [h]
        exact Or.inl rfl
      · rw [h]
        exact Or.inr ⟨out, rfl, ho⟩
    · exact Or.inl rfl
  · exact Or.inl rfl

theorem applyWriteOn_limited {σ : Type} (L : Nat) (env : ApplyEnv σ) (file : Bytes) (d : Delta) (ws : Out (List Bytes)) :
    SameOr L (applyWriteOn (limited L) env file d ws) (applyWriteOn noFault env file d ws) := by
  unfold applyWriteOn
  rcases put_limited L 0 [] d.tgtLeadsig with h | ⟨_, out, h, ho⟩
  · rw [h, put_noFault]
    simp only
    unfold applyHeaderOn
    split
    · exact applyDataOn_limited L env d [] _ _ ws
    · cases env.tgtHeader file with
      | ok header =>
        simp only
        rcases put_limited L 1 ([] ++ d.tgtLeadsig) header with h | ⟨_, out, h, ho⟩
        · rw [h, put_noFault]
          exact applyDataOn_limited L env d header _ _ ws
        · rw [h]
          exact Or.inr ⟨out, rfl, ho⟩
      | err e => exact Or.inl rfl
      | ub => exact Or.inl rfl
      | loop => exact Or.inl rfl
  · rw [h]
    exact Or.inr ⟨out, rfl, ho⟩

theorem writeBodyOn_limited {σ : Type} (L : Nat) (env : ApplyEnv σ) (file : Bytes) (d : Delta) (body : ApplyBody) :
    SameOr L (writeBodyOn (.limited L) env file d body) (writeBodyOn ⟨none, noFault, true⟩ env file d body) := by
  cases body with
  | diff ws => exact applyWriteOn_limited L env file d ws
  | same r =>
    unfold writeBodyOn ApplyFaults.limited writeOldOn
    simp only [Bool.true_eq_false, if_false]
    cases env.exportSig d.tgtLeadsig with
    | ok ls =>
      simp only
      rcases putAll_limited L [ls.take 96, ls.drop 96, r.header, r.archive] 0 [] with h | ⟨out, k', h, ho⟩
      · rw [h]
        exact Or.inl rfl
      · rw [h]
        exact Or.inr ⟨out, rfl, ho⟩
    | err e => exact Or.inl rfl
    | ub => exact Or.inl rfl
    | loop => exact Or.inl rfl

theorem applyToOn_limited {σ : Type} (L : Nat) (env : ApplyEnv σ) (delta : Out Bytes) (src : OldSrc) (cleanup : Nat) :
    SameOr L (applyToOn (.limited L) env delta src cleanup) (applyToOn ⟨none, noFault, true⟩ env delta src cleanup) := by
  cases delta with
  | ok file =>
    unfold applyToOn
    simp only [ApplyFaults.limited]
    cases planApplyOn env file src cleanup with
    | ok p =>
      obtain ⟨d, sig, body⟩ := p
      simp only
      rcases writeBodyOn_limited L env file d body with h | ⟨out, h, ho⟩
      · unfold ApplyFaults.limited at h
        rw [h]
        exact Or.inl rfl
      · unfold ApplyFaults.limited at h
        rw [h]
        exact Or.inr ⟨out, rfl, ho⟩
    | err e => exact Or.inl rfl
    | ub => exact Or.inl rfl
    | loop => exact Or.inl rfl
  | err e => exact Or.inl rfl
  | ub => exact Or.inl rfl
  | loop => exact Or.inl rfl

theorem drpmApplyOn_limited {σ : Type} (L : Nat) (env : ApplyEnv σ) (a : ApplyArgs) (cleanup : Nat) :
    SameOr L (drpmApplyOn (.limited L) env a cleanup) (drpmApplyOn ⟨none, noFault, true⟩ env a cleanup) := by
  unfold drpmApplyOn
  split
  · exact Or.inl rfl
  · exact Or.inl rfl
  split
  · exact Or.inl rfl
  exact applyToOn_limited L env _ a.src cleanup

/-- C98, applying (proved part): if the file that is left has less than `max` bytes, then the outcome is the same
    as without the limit. Missing: larger packages, see `C98_violated_apply`. -/
theorem C98_apply_partial {σ : Type} (max : Nat) (env : ApplyEnv σ) (a : ApplyArgs) (cleanup : Nat) (x : Out Unit) (out : Bytes)
    (h : drpmApply env a cleanup = (x, .written out)) (hmax : out.length < max) :
    drpmApplyOn (.limited max) env a cleanup = (x, .written out) := by
  have hf := (C80_faultless ⟨none, noFault, true⟩ ⟨rfl, fun _ => rfl, rfl⟩ env a cleanup).2 (by rw [h]; nofun)
  rcases drpmApplyOn_limited max env a cleanup with e | ⟨b, e, hb⟩
  · rw [e, hf, h]
  · exfalso
    rcases C80_prefix (.limited max) env a cleanup x out h with e' | ⟨_, p, e', hp⟩
    · rw [e'] at e
      simp only [Prod.mk.injEq, Left.written.injEq] at e
      rw [e.2] at hmax
      omega
    · rw [e'] at e
      simp only [Prod.mk.injEq, Left.written.injEq] at e
      have := hp.length_le
      rw [e.2] at this
      omega

/-- C98 is violated when a delta is applied: for every package with an uncompressed payload of more than `max`
    bytes, the identity delta can be made, and applying it to the package gives the package; but when `write` takes
    at most `max` bytes, applying it reports an input/output error, although nothing failed. For every state left
    behind by earlier calls. -/
theorem C98_violated_apply {σ : Type} (max : Nat) (menv : MakeEnv) (env : ApplyEnv σ) (o : Opts Bytes) (r : Rpm)
    (h : GoodSingle menv env o r) (hp : r.payload = r.archive) (hH : env.H r.file ≠ zeros 16) (hbig : max < r.archive.length) :
    ∃ file, drpmMake menv o (some (.ok r)) none = .ok file ∧ ∀ cleanup,
      drpmApply env ⟨some (.ok file), true, true, .rpm (.ok r)⟩ cleanup = (.ok (), .written r.file) ∧
      (drpmApplyOn (.limited max) env ⟨some (.ok file), true, true, .rpm (.ok r)⟩ cleanup).1 = .err .io := by
  obtain ⟨file, q, hm1, _, hr, t3, hnd, n1, t1, t4, t5⟩ := identity_read menv env o r h
  obtain ⟨file', hm1', _, hi⟩ := C44_partial menv env o r h hp hH
  rw [hm1] at hm1'
  cases hm1'
  obtain ⟨⟨_, h16⟩, hv, ho, _, hhdr, ⟨s1, s2, s3, s4, ms, s5, s6⟩, hex, hmd5, _⟩ := h
  refine ⟨file, hm1, fun cleanup => ⟨hi cleanup, ?_⟩⟩
  have hplan : planApplyOn env file (.rpm (.ok r)) cleanup = .ok (q, .ok ms, .same r) := by
    unfold planApplyOn
    rw [hr, Out.bind_ok]
    simp only [applyOld, sameSource]
    rw [Out.bind_ok, if_pos t3, hmd5, Out.bind_ok]
    simp only
    rw [t1, rdBlk_ok (by rw [h16]; omega), Out.bind_ok]
    have : slice (menv.H (r.header ++ r.payload)) 0 16 = menv.H (r.header ++ r.payload) := by
      unfold slice
      rw [List.drop_zero, List.take_of_length_le (by rw [h16]; omega)]
    rw [this, if_neg (by simp), Out.bind_ok, Out.bind_ok]
    simp only [sameNevr]
    rw [n1, Out.bind_ok, if_neg (by simp), Out.bind_ok]
    unfold applyPlaces
    rw [if_pos t3, Out.bind_ok]
    simp only
    rw [t4, replaceSig_of s1.1 s2 s4 s3 s5, Out.bind_ok]
    unfold planBodyOn
    rw [hnd]
    rfl
  show (applyToOn (.limited max) env (.ok file) (.rpm (.ok r)) cleanup).1 = .err .io
  unfold applyToOn
  simp only [ApplyFaults.limited]
  rw [hplan]
  simp only
  unfold writeBodyOn writeOldOn
  simp only [Bool.true_eq_false, if_false]
  rw [t4, hex]
  simp only
  obtain ⟨out, k', e⟩ := putAll_limited_big max [r.leadsig.take 96, r.leadsig.drop 96, r.header, r.archive] 0 []
    ⟨r.archive, by simp, hbig⟩
  rw [e]
  rfl

/-! ## Witnesses -/

/-- A package with an uncompressed payload of `n` zeros. -/
def hugePkg (n : Nat) : Rpm := { demoSingle (zeros n) with archive := zeros n }

theorem hugePkg_good (n : Nat) : GoodSingle demoSingleMake (demoSingleApply (zeros n)) (demoOpts true 3 true) (hugePkg n) := by
  have h := demo_single (zeros n)
  obtain ⟨s1, s2, s3, s4, s5⟩ := h.6
  exact ⟨h.1, h.2, h.3, h.4, h.5, ⟨s1, s2, s3, s4, s5⟩, h.7, h.8, h.9⟩

theorem hugePkg_length (n : Nat) : (hugePkg n).file.length = (demoNewPkg.leadsig ++ demoHeader).length + n := by
  show (demoNewPkg.leadsig ++ demoHeader ++ zeros n).length = _
  rw [List.length_append, zeros_length]

/-- Non-vacuity of C98_violated_apply, and of C98_apply_partial: two gibibytes of payload on Linux, and the same
    package under a limit of four. -/
example (cleanup : Nat) : ∃ file,
    drpmMake demoSingleMake (demoOpts true 3 true) (some (.ok (hugePkg (2^31)))) none = .ok file ∧
    drpmApply (demoSingleApply (zeros (2^31))) ⟨some (.ok file), true, true, .rpm (.ok (hugePkg (2^31)))⟩ cleanup =
      (.ok (), .written (hugePkg (2^31)).file) ∧
    (drpmApplyOn (.limited linuxMax) (demoSingleApply (zeros (2^31)))
      ⟨some (.ok file), true, true, .rpm (.ok (hugePkg (2^31)))⟩ cleanup).1 = .err .io ∧
    drpmApplyOn (.limited (2^32)) (demoSingleApply (zeros (2^31)))
      ⟨some (.ok file), true, true, .rpm (.ok (hugePkg (2^31)))⟩ cleanup = (.ok (), .written (hugePkg (2^31)).file) := by
  have hn : (demoNewPkg.leadsig ++ demoHeader).length < 2^20 := by decide +kernel
  have hl := hugePkg_length (2^31)
  obtain ⟨file, h1, h2⟩ := C98_violated_apply linuxMax _ _ _ _ (hugePkg_good (2^31)) rfl (by
      show createBe32 (hugePkg (2^31)).file.length ++ zeros 12 ≠ zeros 16
      rw [hl]
      decide +kernel)
    (by show linuxMax < (zeros (2^31)).length; rw [zeros_length]; decide)
  exact ⟨file, h1, (h2 cleanup).1, (h2 cleanup).2, C98_apply_partial _ _ _ _ _ _ (h2 cleanup).1 (by omega)⟩

open Toy in
/-- Non-vacuity of C98_make_partial: a delta and a sequence file. -/
example (addblk : Bool) : ∃ delta line, drpmMakeOn (.limited (delta.length + 1) line.length) 8 (world.makeEnv (newFile.file.take 96))
    (seqOpts true addblk) (some (rpmOf world.lib world.U true oldFile.file)) (some (rpmOf world.lib world.U true newFile.file)) =
      (.ok (), .written delta, .written line) := by
  obtain ⟨delta, line, h1, h2, _, _⟩ := demoSeq addblk
  refine ⟨delta, line, ?_⟩
  rw [C98_make_partial (delta.length + 1) 8 _ _ _ _ delta line h1 h2 (by omega)]
  rfl

/-- The demo codec with `n` more bytes in every stream: data that cannot be compressed. -/
def hugeMake (n : Nat) : MakeEnv := { demoSingleMake with compress := fun _ _ s => .ok (demoPack (zeros n ++ s)) }

def hugeApply (n : Nat) : ApplyEnv Bytes :=
  { demoSingleApply demoNewPkg.archive with dec := fun _ z => z.drop (8 + n) }

theorem huge_good (n : Nat) : GoodSingle (hugeMake n) (hugeApply n) (demoOpts true 3 true) (demoSingle demoNewPkg.archive) := by
  have h := demo_single demoNewPkg.archive
  obtain ⟨s1, s2, s3, s4, s5⟩ := h.6
  refine ⟨h.1, h.2, h.3, h.4, h.5, ⟨s1, s2, s3, s4, s5⟩, h.7, h.8, .gzip, rfl, Or.inl (by show 0 ≤ 9; omega),
    fun _ s => ⟨_, rfl, by simp [demoPack], ⟨_, rfl⟩, ?_⟩⟩
  show (demoPack (zeros n ++ s)).drop (8 + n) = s
  unfold demoPack
  rw [← List.append_assoc, List.drop_append_of_le_length (by simp [zeros_length]; omega), List.drop_of_length_le (by simp [zeros_length]; omega),
    List.nil_append]

theorem huge_length (n : Nat) (delta : Bytes)
    (h : drpmMake (hugeMake n) (demoOpts true 3 true) (some (.ok (demoSingle demoNewPkg.archive))) none = .ok delta) :
    n < delta.length := by
  rw [drpmMake_parts] at h
  obtain ⟨⟨d, head, z⟩, h1, h2⟩ := Out.bind_eq_ok.mp h
  cases h2
  unfold makeParts at h1
  rw [if_neg (by simp), if_neg (by simp [demoOpts])] at h1
  obtain ⟨⟨d', header, level⟩, h2, h1⟩ := Out.bind_eq_ok.mp h1
  obtain ⟨s, _, h1⟩ := Out.bind_eq_ok.mp h1
  obtain ⟨z', h3, h1⟩ := Out.bind_eq_ok.mp h1
  obtain ⟨_, _, h1⟩ := Out.bind_eq_ok.mp h1
  cases h1
  have hc : d.comp = 1 := by
    obtain ⟨nevr, _, h2⟩ := Out.bind_eq_ok.mp (show makeNoDiff (hugeMake n) (demoOpts true 3 true)
      (demoSingle demoNewPkg.archive) = .ok (d, header, level) from h2)
    cases h2
    rfl
  unfold compressDelta at h3
  obtain ⟨_, _, h3⟩ := Out.bind_eq_ok.mp h3
  rw [if_neg (by omega)] at h3
  cases h3
  simp only [demoPack, List.length_append, zeros_length, List.length_cons]
  omega

/-- Non-vacuity of C98_violated_make: data of sixteen gibibytes that cannot be compressed. -/
example (sigLen : Nat) : ∃ delta,
    drpmMake (hugeMake (2^34)) (demoOpts true 3 true) (some (.ok (demoSingle demoNewPkg.archive))) none = .ok delta ∧
    (drpmMakeOn (.limited linuxMax 100) sigLen (hugeMake (2^34)) (demoOpts true 3 true)
      (some (.ok (demoSingle demoNewPkg.archive))) none).1 = .err .io := by
  obtain ⟨delta, _, h, _⟩ := identity_read _ _ _ _ (huge_good (2^34))
  refine ⟨delta, h, C98_violated_make linuxMax 100 sigLen _ _ _ _ delta h ?_⟩
  have := huge_length _ _ h
  have : 7 * linuxMax < 2^34 := by decide
  omega

end Drpm
