import Verif.ApplySafe
import Verif.AcceptLemmas
import Verif.Apply
/-!
# The block cache over an old package, whatever the package and the delta contain

The blocks of a package are read one after the other, so what the cache delivers for a block depends
on the number of the block only: its data, or the failure met on the way to it.  Nothing is assumed of
the source, which may fail in any way, nor of the copies.
-/

namespace Drpm

variable {σ : Type}

/-! ## Runs with the same outcome -/

/-- Both succeed with related results, or both fail in the same way. -/
def Out.Match (R : α → β → Prop) : Out α → Out β → Prop
  | .ok a, .ok b => R a b
  | .err e, .err e' => e = e'
  | .ub, .ub => True
  | .loop, .loop => True
  | _, _ => False

theorem Out.Match.bind {R : α → β → Prop} {T : γ → δ → Prop} {x : Out α} {y : Out β} {f : α → Out γ} {g : β → Out δ}
    (h : Out.Match R x y) (hf : ∀ a b, R a b → Out.Match T (f a) (g b)) : Out.Match T (x >>= f) (y >>= g) := by
  cases x <;> cases y <;> simp only [Out.Match] at h
  · exact hf _ _ h
  · subst h; exact rfl
  · trivial
  · trivial

theorem Out.Match.mono {R T : α → β → Prop} {x : Out α} {y : Out β} (h : Out.Match R x y) (hf : ∀ a b, R a b → T a b) :
    Out.Match T x y := by
  cases x <;> cases y <;> simp only [Out.Match] at h ⊢
  · exact hf _ _ h
  · exact h

theorem Out.Match.same {R : α → α → Prop} (x : Out α) (h : ∀ a, x = .ok a → R a a) : Out.Match R x x := by
  cases x with
  | ok a => exact h a rfl
  | err e => exact rfl
  | ub => trivial
  | loop => trivial

theorem Out.Match.eq {x y : Out α} (h : Out.Match Eq x y) : x = y := by
  cases x <;> cases y <;> simp only [Out.Match] at h
  · rw [h]
  · rw [h]
  · rfl
  · rfl

theorem Out.bind_ext {x : Out α} {f g : α → Out β} (h : ∀ a, x = .ok a → f a = g a) : (x >>= f) = (x >>= g) := by
  cases x with
  | ok a => exact h a rfl
  | err e => rfl
  | ub => rfl
  | loop => rfl

/-- The failure `x` of another operation. -/
def Out.halt (x : Out α) : Out β := x >>= fun _ => .ub

theorem Out.halt_bind (x : Out α) (h : ∀ a, x ≠ .ok a) (f : β → Out γ) : (x.halt >>= f) = x.halt := by
  cases x with
  | ok a => exact absurd rfl (h a)
  | err e => rfl
  | ub => rfl
  | loop => rfl

theorem Out.halt_not_ok (x : Out α) (b : β) : x.halt ≠ .ok b := by
  cases x with
  | ok a => intro h; cases h
  | err e => intro h; cases h
  | ub => intro h; cases h
  | loop => intro h; cases h

theorem Out.Match.halt {R : β → γ → Prop} (x : Out α) : Out.Match R x.halt x.halt := by
  cases x with
  | ok a => trivial
  | err e => exact rfl
  | ub => trivial
  | loop => trivial

/-! ## A sequential source, until it fails -/

/-- The states of the source. -/
def runStates (step : σ → Out (Bytes × σ)) (s0 : σ) : Nat → σ
  | 0 => s0
  | k + 1 => match step (runStates step s0 k) with
    | .ok x => x.2
    | _ => runStates step s0 k

/-- The blocks of the source. -/
def runBlocks (step : σ → Out (Bytes × σ)) (s0 : σ) (k : Nat) : Bytes :=
  match step (runStates step s0 k) with
  | .ok x => x.1
  | _ => []

theorem source_runs (step : σ → Out (Bytes × σ)) (s0 : σ) : ∀ n, ∃ F, F ≤ n ∧
    SrcOk step (runStates step s0) (runBlocks step s0) F ∧ (F = n ∨ ∀ v, step (runStates step s0 F) ≠ .ok v) := by
  intro n
  induction n with
  | zero => exact ⟨0, Nat.le_refl _, (fun k hk => by omega), Or.inl rfl⟩
  | succ n ih =>
    obtain ⟨F, h1, h2, h3⟩ := ih
    rcases h3 with rfl | h3
    · cases hs : step (runStates step s0 F) with
      | ok x =>
        refine ⟨F + 1, Nat.le_refl _, fun k hk => ?_, Or.inl rfl⟩
        by_cases hkF : k = F
        · subst hkF
          rw [hs, runBlocks, runStates, hs]
        · exact h2 k (by omega)
      | err e => exact ⟨F, by omega, h2, Or.inr (fun v hv => by rw [hs] at hv; cases hv)⟩
      | ub => exact ⟨F, by omega, h2, Or.inr (fun v hv => by rw [hs] at hv; cases hv)⟩
      | loop => exact ⟨F, by omega, h2, Or.inr (fun v hv => by rw [hs] at hv; cases hv)⟩
    · exact ⟨F, by omega, h2, Or.inr h3⟩

variable {cfg : CacheCfg} {B : Nat → Bytes} {step : σ → Out (Bytes × σ)} {S : Nat → σ} {F : Nat}

/-- Reading on to a block behind the failure. -/
theorem fillSeq_stops (hsrc : SrcOk step S B F) (hno : ∀ v, step (S F) ≠ .ok v) {cnt id a : Nat} (hid : id < cfg.nblk) (hF : F ≤ id) :
    ∀ fuel (c : Cache σ), id + 1 - c.rpmId < fuel → c.rpmId ≤ F →
      BInv cfg B false c cnt id (some a) [id] → a ∈ c.core → c.table id = some a → c.src = S c.rpmId →
      fillSeq cfg step fuel c a id cnt = (step (S F)).halt := by
  intro fuel
  induction fuel with
  | zero => intro c hf; omega
  | succ fuel ih =>
    intro c hf hle h ha htab hs
    by_cases hcF : c.rpmId = F
    · rw [fillSeq, hs, hcF]
      cases hst : step (S F) with
      | ok v => exact absurd hst (hno v)
      | err e => rfl
      | ub => rfl
      | loop => rfl
    have hk : c.rpmId < cfg.nblk := by omega
    rw [fillSeq, hs, hsrc _ (by omega), Out.bind_ok]
    simp only
    have hki : c.rpmId ≠ id := by omega
    rw [if_neg hki, if_neg (by omega)]
    unfold keepPassed
    rw [maxRd]
    have e1 : (upd c.heap a { type := BType.core, id := c.rpmId, buf := B c.rpmId, off := (c.heap a).off } a).id
        = c.rpmId := by simp [upd]
    simp only [e1]
    rw [if_pos hk, Out.bind_ok]
    have hne : ∀ x ∈ c.core, x ≠ a → (c.heap x).id ≠ c.rpmId := by
      intro x hx hxa
      rcases (h.coreOk x hx (fun e => hxa (Option.some.inj e).symm)).1 with ⟨_, _, h1⟩ | ⟨h1, _⟩
      · omega
      · cases h1
    by_cases hmax : cfg.max c.rpmId > cnt
    · rw [if_pos hmax]
      have h1 := h.advance (s := S (c.rpmId + 1)) (b := B c.rpmId) (ex := [id, c.rpmId]) ha hk (by simp)
        (Or.inr (by simp))
      obtain ⟨c', p1, p2, p3, p4, p5, p6, p7⟩ := pushBlock_spec (k := c.rpmId) h1 ha hki hk
        (by simp) (by
          intro x hx hxa
          simp only [upd, if_neg hxa]
          exact hne x hx hxa) (by simp [upd]) (by simp [upd]) (by simp [upd])
      rw [p1, Out.bind_ok]
      simp only at p4 p5 p7
      refine ih c' (by rw [p4]; omega) (by rw [p4]; omega) p2 p3 (by rw [p7]; exact htab) ?_
      rw [p5, p4]
    · rw [if_neg hmax, Out.bind_ok]
      have h1 := h.advance (s := S (c.rpmId + 1)) (b := B c.rpmId) (ex := [id]) ha hk (by simp)
        (Or.inl (by unfold Needed; omega))
      exact ih _ (by simp only; omega) (by simp only; omega) h1 ha htab rfl

/-- The source is before its failure. -/
def Until (S : Nat → σ) (F : Nat) : Nat → σ → Prop := fun k s => s = S k ∧ k ≤ F

theorem rpmFiller_at (hsrc : SrcOk step S B F) {id : Nat} (hid : id < cfg.nblk) (hF : id < F) :
    FillAt cfg B false (Until S F) (rpmFiller cfg step) id := by
  intro c a cnt hle _ h ha htab hs
  obtain ⟨c', h1, h2, h3, h4, h5, h6⟩ := fillSeq_spec (cnt := cnt) (a := a) hsrc hid hF (id + 2) c (by omega)
    (hle rfl) h ha htab hs.1
  exact ⟨c', h1, h2, h3, h4, ⟨h5, by omega⟩, fun e => by cases e⟩

theorem getBlock_stops (hsrc : SrcOk step S B F) (hno : ∀ v, step (S F) ≠ .ok v) (hmax : 0 < cfg.maxCore) {c : Cache σ} {cnt id : Nat}
    (h : CacheOk cfg B false (Until S F) c cnt id) (hid : id < cfg.nblk) (hF : F ≤ id) :
    getBlock cfg (rpmFiller cfg step) c id cnt = (step (S F)).halt := by
  unfold getBlock
  have h0 : BInv cfg B false { c with last := none } cnt id none [] := h.inv.setLastCleanup none c.cleanup
  obtain ⟨a, c1, hg, g⟩ := grabBlock_spec h0 hmax
  rw [hg, Out.bind_ok]
  simp only
  have hr1 : c1.rpmId ≤ F := by rw [g.rpm]; exact h.srcOk.2
  have hidx : ∀ x ∈ c1.core, a ≠ x → (c1.heap x).id ≠ id := by
    intro x hx hxa he
    rcases (g.coreOk x hx (fun e => hxa (Option.some.inj e))).1 with ⟨_, _, h4⟩ | ⟨h4, _⟩
    · omega
    · cases h4
  have h1 := g.enter hidx
  have hfill : rpmFiller cfg step { c1 with table := upd c1.table id (some a) } a id cnt = (step (S F)).halt := by
    refine fillSeq_stops hsrc hno hid hF (id + 2) _ (by simp only; omega) hr1 h1 g.mem (by simp [upd]) ?_
    simp only
    rw [g.rpm, g.source]
    exact h.srcOk.1
  have hload : loadBlock cfg (rpmFiller cfg step) c1 a id cnt = (step (S F)).halt := by
    unfold loadBlock
    rw [tabRd, if_pos hid, Out.bind_ok, tabWr_ok hid, Out.bind_ok]
    cases ht : c1.table id with
    | none => exact hfill
    | some p =>
      exfalso
      rcases g.tab id p ht with ⟨q1, q2, q3⟩ | ⟨q1, q2⟩
      · by_cases hpa : a = p
        · have := q2 (by rw [hpa]); simp at this
        · exact hidx p q1 hpa (q3 (fun e => hpa (Option.some.inj e)))
      · omega
  rw [hload, Out.halt_bind _ hno]

theorem lastBlock_stops (hsrc : SrcOk step S B F) (hno : ∀ v, step (S F) ≠ .ok v) (hmax : 0 < cfg.maxCore) {c : Cache σ} {cnt id : Nat}
    (h : CacheOk cfg B false (Until S F) c cnt id) (hid : id < cfg.nblk) (hF : F ≤ id) :
    lastBlock cfg (rpmFiller cfg step) c cnt id = (step (S F)).halt := by
  have hr : c.rpmId ≤ F := h.srcOk.2
  have hcore : ∀ x ∈ c.core, (c.heap x).id ≠ id := by
    intro x hx he
    rcases (h.inv.coreOk x hx (by simp)).1 with ⟨_, _, h4⟩ | ⟨h4, _⟩
    · omega
    · cases h4
  have hfind : findBlock cfg (rpmFiller cfg step) c cnt id = (step (S F)).halt := by
    unfold findBlock
    rw [tabRd, if_pos hid, Out.bind_ok]
    cases ht : c.table id with
    | none => exact getBlock_stops hsrc hno hmax h hid hF
    | some a =>
      exfalso
      rcases h.inv.tab id a ht with ⟨q1, _, q3⟩ | ⟨q1, q2⟩
      · exact hcore a q1 (q3 (by simp))
      · omega
  unfold lastBlock
  cases hl : c.last with
  | none => exact hfind
  | some a =>
    simp only
    rw [if_neg (fun e => hcore a (h.lastOk a hl) e.symm)]
    exact hfind

/-- What the cache delivers, as a function of the request: the blocks `B` before block `F`, then the
    failure `x`. -/
def toldNext {α : Type} (nblk F : Nat) (B : Nat → Bytes) (x : Out α) : BlockProvider Unit := fun _ off len _ id =>
  if nblk ≤ id then .ub
  else if F ≤ id then x.halt
  else do
    let b ← rdBlk (B id) (off % blockSize) (if (off % blockSize + len) % 2^64 > blockSize then blockSize - off % blockSize else len)
    .ok (b, ())

theorem rdBlk_length {l b : Bytes} {i n : Nat} (h : rdBlk l i n = .ok b) : b.length = n := by
  unfold rdBlk at h
  split at h
  · cases h
    simp only [List.length_take, List.length_drop]; omega
  · cases h

/-- The source fails at `F`, or `F` is not smaller than the number of blocks. -/
structure Source (cfg : CacheCfg) (step : σ → Out (Bytes × σ)) (S : Nat → σ) (B : Nat → Bytes) (F : Nat) : Prop where
  room : 0 < cfg.maxCore
  blocks : cfg.nblk < 2^32
  runs : SrcOk step S B F
  ends : cfg.nblk ≤ F ∨ ∀ v, step (S F) ≠ .ok v

theorem blocksNext_told (hS : Source cfg step S B F) {c : Cache σ} {off len cnt id : Nat}
    (h : CacheOk cfg B false (Until S F) c cnt id) (hm : id < cfg.nblk → cnt ≤ cfg.max id) (u : Unit) :
    Out.Match (fun x y => x.1 = y.1 ∧ (len + blockSize < 2^64 → x.1.length = min len (blockSize - off % blockSize)) ∧
      CacheOk cfg B false (Until S F) x.2 cnt id)
      (blocksNext cfg (rpmFiller cfg step) c off len cnt id) (toldNext cfg.nblk F B (step (S F)) u off len cnt id) := by
  unfold blocksNext toldNext
  by_cases hid : cfg.nblk ≤ id
  · rw [if_pos hid]
    have hfind : findBlock cfg (rpmFiller cfg step) c cnt id = .ub := by
      unfold findBlock
      rw [tabRd, if_neg (by omega)]
      rfl
    have hlast : lastBlock cfg (rpmFiller cfg step) c cnt id = .ub := by
      unfold lastBlock
      cases hl : c.last with
      | none => exact hfind
      | some a =>
        simp only
        have := (h.inv.coreOk a (h.lastOk a hl) (by simp)).2.1
        rw [if_neg (by omega)]
        exact hfind
    rw [hlast]
    trivial
  · rw [if_neg hid]
    by_cases hF : F ≤ id
    · rw [if_pos hF]
      have hno : ∀ v, step (S F) ≠ .ok v := by
        rcases hS.ends with h1 | h1
        · omega
        · exact h1
      rw [lastBlock_stops hS.runs hno hS.room h (by omega) hF, Out.halt_bind _ hno]
      exact Out.Match.halt _
    · rw [if_neg hF]
      obtain ⟨a, c', h1, h2, h3, h4, h5, h6⟩ := lastBlock_spec (rpmFiller_at hS.runs (by omega) (by omega)) hS.room h (by omega)
        (hm (by omega))
      have hbuf : (c'.heap a).buf = B id := by
        have := (h2.coreOk a h3 (by simp)).2.2.1
        rw [h4] at this; exact this
      rw [h1, Out.bind_ok]
      simp only
      rw [hbuf]
      refine Out.Match.bind (Out.Match.same (R := fun x y => x = y ∧ (len + blockSize < 2^64 →
        x.length = min len (blockSize - off % blockSize))) _ ?_) ?_
      · intro b hb
        refine ⟨rfl, fun hl => ?_⟩
        rw [rdBlk_length hb]
        have hlt : off % blockSize < blockSize := Nat.mod_lt _ (by decide)
        rw [Nat.mod_eq_of_lt (by omega)]
        split <;> omega
      · rintro b b' ⟨rfl, hb⟩
        refine ⟨rfl, hb, h2.setLastCleanup (some a) c'.cleanup, ?_, h5, h6⟩
        intro x hx
        simp only [Option.some.injEq] at hx
        subst hx; exact h3

/-! ## The loop -/

/-- A provider whose requests are answered as `toldNext` says; `pr` is the cache in its state. -/
def Tells {τ : Type} (cfg : CacheCfg) (step : σ → Out (Bytes × σ)) (S : Nat → σ) (B : Nat → Bytes) (F : Nat) (next : BlockProvider τ)
    (pr : τ → Cache σ) : Prop :=
  ∀ (c : τ) (off len cnt id : Nat), CacheOk cfg B false (Until S F) (pr c) cnt id → (id < cfg.nblk → cnt ≤ cfg.max id) → ∀ u : Unit,
    Out.Match (fun x y => x.1 = y.1 ∧ (len + blockSize < 2^64 → x.1.length = min len (blockSize - off % blockSize)) ∧
      CacheOk cfg B false (Until S F) (pr x.2) cnt id)
      (next c off len cnt id) (toldNext cfg.nblk F B (step (S F)) u off len cnt id)

variable {τ : Type} {next : BlockProvider τ} {pr : τ → Cache σ}

/-- One external copy. -/
theorem extCopyLoop_told (hS : Source cfg step S B F) (hN : Tells cfg step S B F next pr) (useAdd : Bool) :
    ∀ fuel len (t : ReconSt τ), len < fuel → t.extOff + len < 2^64 →
      (0 < len → ∀ j, t.extOff / blockSize ≤ j → blockSize * j < t.extOff + len → j < cfg.nblk ∧ t.done ≤ cfg.max j) →
      (∀ id, blockId t.extOff ≤ id → CacheOk cfg B false (Until S F) (pr t.blk) t.done id) →
      Out.Match (fun t' v => v = t'.flat ∧ t'.extOff = t.extOff + len ∧ t'.done = t.done ∧
          ∀ cnt id, t.done < cnt → CacheOk cfg B false (Until S F) (pr t'.blk) cnt id)
        (extCopyLoop next useAdd fuel len (blockId t.extOff) t)
        (extCopyLoop (toldNext cfg.nblk F B (step (S F))) useAdd fuel len (blockId t.extOff) t.flat) := by
  have hbs : blockSize = 8192 := rfl
  intro fuel
  induction fuel with
  | zero => intro len t hf; omega
  | succ fuel ih =>
    intro len t hf hlen hr hc
    by_cases h0 : len > 0
    rotate_left
    · rw [extCopyLoop, if_neg h0, extCopyLoop, if_neg h0]
      exact ⟨rfl, by omega, rfl, fun cnt id hcnt => (hc _ (Nat.le_refl _)).next (Or.inl hcnt)⟩
    rw [extCopyLoop, if_pos h0, extCopyLoop, if_pos h0]
    have hdm := Nat.div_add_mod t.extOff blockSize
    have hlt : t.extOff % blockSize < blockSize := Nat.mod_lt _ (by decide)
    have hnb := hS.blocks
    have hsmall : t.extOff + len ≤ blockSize * 2^32 := by
      have hd := Nat.div_add_mod (t.extOff + len - 1) blockSize
      have hl := Nat.mod_lt (t.extOff + len - 1) (show 0 < blockSize by decide)
      have := (hr h0 ((t.extOff + len - 1) / blockSize) (Nat.div_le_div_right (by omega)) (by omega)).1
      rw [hbs] at *
      omega
    refine Out.Match.bind (hN _ _ _ _ _ (hc _ (Nat.le_refl _)) (fun hid =>
      (hr h0 (blockId t.extOff) (Nat.le_refl _) (by unfold blockId; omega)).2) _) ?_
    rintro ⟨b, c'⟩ ⟨b', v⟩ ⟨hb, hbl, hc'⟩
    simp only at hb hbl hc' ⊢
    subst hb
    have hbl := hbl (by rw [hbs] at *; omega)
    refine Out.Match.bind (Out.Match.same (R := Eq) (applyAdd useAdd b t.add) (fun _ _ => rfl)) ?_
    rintro ⟨b', add'⟩ _ rfl
    simp only
    have hw1 : (len + 2 ^ 64 - b.length) % 2 ^ 64 = len - b.length := by omega
    have hw2 : (t.extOff + b.length) % 2 ^ 64 = t.extOff + b.length := Nat.mod_eq_of_lt (by omega)
    have hw3 : (t.flat.extOff + b.length) % 2 ^ 64 = t.extOff + b.length := hw2
    rw [hw1, hw2, hw3]
    by_cases hlast : len - b.length = 0
    · have hfu : ∃ f, fuel = f + 1 := ⟨fuel - 1, by omega⟩
      obtain ⟨f, rfl⟩ := hfu
      rw [hlast, extCopyLoop, if_neg (by omega), extCopyLoop, if_neg (by omega)]
      refine ⟨rfl, by simp only; omega, rfl, fun cnt id hcnt => hc'.next (Or.inl hcnt)⟩
    · have hbl' : b.length = blockSize - t.extOff % blockSize := by omega
      have hid : blockId t.extOff + 1 = blockId (t.extOff + b.length) := by
        unfold blockId
        rw [hbl', show t.extOff + (blockSize - t.extOff % blockSize) =
          blockSize * (t.extOff / blockSize + 1) by rw [Nat.mul_add, Nat.mul_one]; omega]
        rw [Nat.mul_div_cancel_left _ (by decide)]
      rw [hid]
      refine (ih (len - b.length) { t with blk := c', extOff := t.extOff + b.length, add := add', out := t.out ++ [b'] }
        (by omega) (by simp only; omega) (fun _ j hj1 hj2 => ?_) (fun id hid' => hc'.next (Or.inr ⟨rfl, ?_⟩))).mono ?_
      · simp only at hj1 hj2 ⊢
        exact hr h0 j (Nat.le_trans (Nat.div_le_div_right (by omega)) hj1) (by omega)
      · simp only at hid'
        omega
      · rintro x y ⟨h1, h2, h3, h4⟩
        simp only at h2 h3 h4
        exact ⟨h1, by omega, h3, h4⟩

/-- What `blocks_create` has marked, for any copies: a copy lies inside the table and has been entered,
    or begins outside. -/
def Marked (nblk : Nat) (mx : Nat → Nat) : Nat → Nat → List (Nat × Nat) → Prop
  | _, _, [] => True
  | i, p, (w, n) :: rest =>
    ((addS32 p w + n < 2^64 ∧ (0 < n → ∀ j, addS32 p w / blockSize ≤ j → blockSize * j < addS32 p w + n → j < nblk ∧ i ≤ mx j)) ∨
      (0 < n ∧ nblk ≤ addS32 p w / blockSize)) ∧
    Marked nblk mx (i + 1) ((addS32 p w + n) % 2^64) rest

theorem markBlocks_fits (nblk i : Nat) : ∀ n b mx mx', markBlocks nblk i n b mx = .ok mx' → n = 0 ∨ b + n ≤ nblk := by
  intro n
  induction n with
  | zero => intro b mx mx' _; exact Or.inl rfl
  | succ n ih =>
    intro b mx mx' h
    rw [markBlocks] at h
    split at h
    · rcases ih _ _ _ h with h1 | h1
      · right; omega
      · right; omega
    · cases h

theorem addS32_lt (p w : Nat) : addS32 p w < 2^64 := by
  unfold addS32 u64OfInt
  omega

theorem markCopies_marked {nblk : Nat} (hn : nblk < 2^32) : ∀ (ext : List (Nat × Nat)) (i p : Nat) (mx mx' : Nat → Nat),
    Words ext → (∀ j, mx j ≤ i) → markCopies nblk ext i p mx = .ok mx' →
    (∀ j, mx j ≤ mx' j) ∧ Marked nblk mx' i p ext := by
  have hbs : blockSize = 8192 := rfl
  intro ext
  induction ext with
  | nil =>
    intro i p mx mx' _ _ h
    cases h
    exact ⟨fun _ => Nat.le_refl _, trivial⟩
  | cons x ext ih =>
    intro i p mx mx' hw hm h
    obtain ⟨w, n⟩ := x
    have hwn : n < 2^32 := (hw (w, n) (by simp)).2
    rw [markCopies] at h
    obtain ⟨mx1, h1, h2⟩ := Out.bind_eq_ok.mp h
    have hq := addS32_lt p w
    have hfit := markBlocks_fits _ _ _ _ _ _ h1
    have hmx1 : ∀ j, mx1 j = if addS32 p w / blockSize ≤ j ∧ j < addS32 p w / blockSize +
        (blocksOf ((addS32 p w + n) % 2^64) - addS32 p w / blockSize) then i else mx j := by
      rcases hfit with hz | hz
      · rw [hz] at h1
        cases h1
        intro j
        rw [hz, if_neg (by omega)]
      · obtain ⟨m, e1, e2⟩ := markBlocks_spec nblk i _ _ mx hz
        rw [h1] at e1
        cases e1
        exact e2
    have hup : ∀ j, mx j ≤ mx1 j ∧ mx1 j ≤ i := by
      intro j
      rw [hmx1 j]
      have := hm j
      split <;> omega
    obtain ⟨g1, g2⟩ := ih (i + 1) _ mx1 mx' (fun c hc => hw c (by simp [hc])) (fun j => by have := (hup j).2; omega) h2
    refine ⟨fun j => Nat.le_trans (hup j).1 (g1 j), ?_, g2⟩
    by_cases hov : addS32 p w + n < 2^64
    · left
      refine ⟨hov, fun h0 j hj1 hj2 => ?_⟩
      rw [Nat.mod_eq_of_lt hov] at hfit hmx1
      have hbo : blocksOf (addS32 p w + n) = (addS32 p w + n - 1) / blockSize + 1 := blocksOf_pos (by omega) hov
      rw [hbo] at hfit hmx1
      rw [hbs] at *
      have hj3 : j ≤ (addS32 p w + n - 1) / 8192 := by omega
      have hj4 : addS32 p w / 8192 ≤ (addS32 p w + n - 1) / 8192 := by omega
      refine ⟨by omega, ?_⟩
      have := hmx1 j
      rw [if_pos (by omega)] at this
      have := g1 j
      omega
    · right
      rw [hbs]
      omega

/-- The external copies before an internal copy. -/
theorem extCopies_told (hS : Source cfg step S B F) (hN : Tells cfg step S B F next pr) (useAdd : Bool) (l2 : List (Nat × Nat)) :
    ∀ (l1 : List (Nat × Nat)) (t : ReconSt τ), Marked cfg.nblk cfg.max t.done t.extOff (l1 ++ l2) →
      (∀ id, CacheOk cfg B false (Until S F) (pr t.blk) t.done id) →
      Out.Match (fun t' v => v = t'.flat ∧ Marked cfg.nblk cfg.max t'.done t'.extOff l2 ∧
          ∀ id, CacheOk cfg B false (Until S F) (pr t'.blk) t'.done id)
        (extCopies next useAdd l1 t)
        (extCopies (toldNext cfg.nblk F B (step (S F))) useAdd l1 t.flat) := by
  intro l1
  induction l1 with
  | nil => intro t hr hc; exact ⟨rfl, hr, hc⟩
  | cons c l1 ih =>
    intro t hr hc
    obtain ⟨w, n⟩ := c
    obtain ⟨hcopy, hrest⟩ := hr
    unfold extCopies
    simp only
    have hfl : addS32 t.flat.extOff w = addS32 t.extOff w := rfl
    rw [hfl]
    rcases hcopy with ⟨h1, h2⟩ | ⟨h1, h2⟩
    · refine Out.Match.bind (extCopyLoop_told hS hN useAdd (n + 1) n { t with extOff := addS32 t.extOff w } (by omega) h1 h2
        (fun id _ => hc id)) ?_
      rintro t' v ⟨rfl, f1, f2, f3⟩
      simp only at f1 f2 f3
      refine (ih { t' with done := t'.done + 1 } ?_ (fun id => f3 _ id (by simp only [f2]; omega)))
      simp only [f1, f2]
      rw [Nat.mod_eq_of_lt h1] at hrest
      exact hrest
    · have e1 := hN t.blk (addS32 t.extOff w) n t.done _ (hc (blockId (addS32 t.extOff w)))
        (fun h => absurd h (by unfold blockId; omega)) ()
      have e2 : toldNext cfg.nblk F B (step (S F)) () (addS32 t.extOff w) n t.done (blockId (addS32 t.extOff w)) = .ub := by
        unfold toldNext
        rw [if_pos (show cfg.nblk ≤ blockId _ from h2)]
      rw [e2] at e1
      have e3 : next t.blk (addS32 t.extOff w) n t.done (blockId (addS32 t.extOff w)) = .ub := by
        generalize next t.blk (addS32 t.extOff w) n t.done (blockId (addS32 t.extOff w)) = o at e1
        cases o <;> simp only [Out.Match] at e1
        rfl
      rw [extCopyLoop, if_pos h1, extCopyLoop, if_pos h1]
      simp only [ReconSt.flat]
      rw [e2, e3]
      trivial

/-- The whole loop. -/
theorem reconLoop_told (hS : Source cfg step S B F) (hN : Tells cfg step S B F next pr) (useAdd : Bool) :
    ∀ (ints ext : List (Nat × Nat)) (d : Bytes) (t : ReconSt τ), Marked cfg.nblk cfg.max t.done t.extOff ext →
      (∀ id, CacheOk cfg B false (Until S F) (pr t.blk) t.done id) →
      Out.Match (fun t' v => v = t'.flat)
        (reconLoop next useAdd ints ext d t)
        (reconLoop (toldNext cfg.nblk F B (step (S F))) useAdd ints ext d t.flat) := by
  intro ints
  induction ints with
  | nil => intro ext d t _ _; exact rfl
  | cons c ints ih =>
    intro ext d t hr hc
    obtain ⟨todo, len⟩ := c
    unfold reconLoop
    by_cases ht : todo > ext.length
    · rw [if_pos ht, if_pos ht]; exact rfl
    rw [if_neg ht, if_neg ht]
    refine Out.Match.bind (extCopies_told hS hN useAdd (ext.drop todo) (ext.take todo) t
      (by rw [List.take_append_drop]; exact hr) hc) ?_
    rintro t1 v ⟨rfl, h1, h2⟩
    refine Out.Match.bind (Out.Match.same (R := Eq) (rdBlk d 0 len) (fun _ _ => rfl)) ?_
    rintro b _ rfl
    exact ih (ext.drop todo) (d.drop len) { t1 with out := t1.out ++ [b] } h1 h2

/-- The result of the loop over a package does not depend on the cleanup counter. -/
theorem reconWrites_cleanup (step : σ → Out (Bytes × σ)) (s0 : σ) {extLen : Nat} {exts : List (Nat × Nat)} {cfg : CacheCfg}
    (hcfg : blocksCreate extLen exts = .ok cfg) (hw : Words exts) (useAdd : Bool) (ints : List (Nat × Nat)) (d add : Bytes) (c1 c2 : Nat) :
    reconWrites (blocksNext cfg (rpmFiller cfg step)) (emptyCache s0 c1) useAdd exts ints d add =
      reconWrites (blocksNext cfg (rpmFiller cfg step)) (emptyCache s0 c2) useAdd exts ints d add := by
  unfold blocksCreate at hcfg
  split at hcfg
  · cases hcfg
  · rename_i hno
    obtain ⟨mx, hm1, hm2⟩ := Out.bind_eq_ok.mp hcfg
    cases hm2
    have hnb : blocksOf extLen < 2^32 := by omega
    obtain ⟨_, hmk⟩ := markCopies_marked hnb exts 0 0 (fun _ => 0) mx hw (fun _ => Nat.le_refl _) hm1
    obtain ⟨F, _, hF2, hF3⟩ := source_runs step s0 (blocksOf extLen)
    have hS : Source ⟨blocksOf extLen, mx, maxCoreBlocks⟩ step (runStates step s0) (runBlocks step s0) F :=
      { room := (show 0 < maxCoreBlocks by decide)
        blocks := hnb
        runs := hF2
        ends := hF3.imp (fun h => by rw [h]; exact Nat.le_refl _) id }
    have key : ∀ c, reconWrites (blocksNext ⟨blocksOf extLen, mx, maxCoreBlocks⟩ (rpmFiller ⟨blocksOf extLen, mx, maxCoreBlocks⟩ step))
        (emptyCache s0 c) useAdd exts ints d add =
        reconWrites (toldNext (blocksOf extLen) F (runBlocks step s0) (step (runStates step s0 F))) () useAdd exts ints d add := by
      intro c
      refine Out.Match.eq (Out.Match.bind (reconLoop_told (pr := id) hS (fun _ _ _ _ _ h hm u => blocksNext_told hS h hm u) useAdd ints exts d ⟨emptyCache s0 c, 0, 0, add, []⟩ hmk
        (fun id => emptyCache_ok ⟨rfl, Nat.zero_le _⟩)) ?_)
      rintro t _ rfl
      rfl
    rw [key c1, key c2]

end Drpm
