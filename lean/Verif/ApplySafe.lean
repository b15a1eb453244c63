import Verif.SafeLemmas
import Verif.Props.Stream
/-!
# The reconstruction loop is defined, whatever the old package contains
-/

namespace Drpm

variable {σ : Type}

/-! ## A source that fails compared with one that goes on -/

/-- `x` does what `y` does, or fails earlier. -/
def Out.Below (x y : Out α) : Prop := (∃ e, x = .err e) ∨ x = y

theorem Out.Below.refl (x : Out α) : x.Below x := Or.inr rfl

theorem Out.Below.bind {x y : Out α} {f g : α → Out β} (h : x.Below y) (hf : ∀ a, (f a).Below (g a)) :
    (x >>= f).Below (y >>= g) := by
  rcases h with ⟨e, rfl⟩ | rfl
  · exact Or.inl ⟨e, rfl⟩
  · cases x with
    | ok a => exact hf a
    | err e => exact Or.inl ⟨e, rfl⟩
    | ub => exact Or.inr rfl
    | loop => exact Or.inr rfl

theorem Out.Below.ite {c : Prop} [Decidable c] {x y x' y' : Out α} (h1 : x.Below x') (h2 : y.Below y') :
    (if c then x else y).Below (if c then x' else y') := by
  split
  · exact h1
  · exact h2

theorem Out.Good.below {P : α → Prop} {x y : Out α} (h : y.Good P) (hb : x.Below y) : x.Good P := by
  rcases hb with ⟨e, rfl⟩ | rfl
  · trivial
  · exact h

/-- The source that goes on with an empty block where the original one fails. -/
def goesOn (step : σ → Out (Bytes × σ)) (s : σ) : Out (Bytes × σ) :=
  match step s with
  | .err _ => .ok (zeros blockSize, s)
  | o => o

theorem goesOn_below (step : σ → Out (Bytes × σ)) (s : σ) : (step s).Below (goesOn step s) := by
  unfold goesOn
  cases h : step s with
  | err e => exact Or.inl ⟨e, rfl⟩
  | _ => exact Or.inr rfl

theorem fillSeq_below (cfg : CacheCfg) (step : σ → Out (Bytes × σ)) : ∀ fuel (c : Cache σ) a id cnt,
    (fillSeq cfg step fuel c a id cnt).Below (fillSeq cfg (goesOn step) fuel c a id cnt) := by
  intro fuel
  induction fuel with
  | zero => intro c a id cnt; exact Out.Below.refl _
  | succ fuel ih =>
    intro c a id cnt
    unfold fillSeq
    refine (goesOn_below step c.src).bind ?_
    rintro ⟨b, src⟩
    exact Out.Below.ite (Out.Below.refl _) (Out.Below.ite (Out.Below.refl _) ((Out.Below.refl _).bind (fun c => ih c a id cnt)))

/-- One filler below another. -/
def FillBelow (f g : Filler σ) : Prop := ∀ c a id cnt, (f c a id cnt).Below (g c a id cnt)

theorem getBlock_below {cfg : CacheCfg} {f g : Filler σ} (h : FillBelow f g) (c : Cache σ) (id cnt : Nat) :
    (getBlock cfg f c id cnt).Below (getBlock cfg g c id cnt) := by
  unfold getBlock
  refine (Out.Below.refl _).bind ?_
  rintro ⟨a, c⟩
  refine Out.Below.bind ?_ (fun _ => Out.Below.refl _)
  unfold loadBlock
  refine (Out.Below.refl _).bind (fun page => (Out.Below.refl _).bind (fun c => ?_))
  cases page with
  | none => exact h _ _ _ _
  | some p => exact Out.Below.ite (Out.Below.refl _) (h _ _ _ _)

theorem findBlock_below {cfg : CacheCfg} {f g : Filler σ} (h : FillBelow f g) (c : Cache σ) (cnt id : Nat) :
    (findBlock cfg f c cnt id).Below (findBlock cfg g c cnt id) := by
  unfold findBlock
  refine (Out.Below.refl _).bind (fun x => ?_)
  cases x with
  | none => exact getBlock_below h _ _ _
  | some a => exact Out.Below.ite (getBlock_below h _ _ _) (Out.Below.refl _)

theorem blocksNext_below {cfg : CacheCfg} {f g : Filler σ} (h : FillBelow f g) (c : Cache σ) (off len cnt id : Nat) :
    (blocksNext cfg f c off len cnt id).Below (blocksNext cfg g c off len cnt id) := by
  unfold blocksNext
  refine Out.Below.bind ?_ (fun _ => Out.Below.refl _)
  unfold lastBlock
  cases c.last with
  | none => exact findBlock_below h _ _ _
  | some a => exact Out.Below.ite (Out.Below.refl _) (findBlock_below h _ _ _)

/-- One provider below another. -/
def NextBelow {τ : Type} (f g : BlockProvider τ) : Prop := ∀ c off len cnt id, (f c off len cnt id).Below (g c off len cnt id)

theorem extCopyLoop_below {τ : Type} {f g : BlockProvider τ} (h : NextBelow f g) (useAdd : Bool) : ∀ fuel len id (s : ReconSt τ),
    (extCopyLoop f useAdd fuel len id s).Below (extCopyLoop g useAdd fuel len id s) := by
  intro fuel
  induction fuel with
  | zero => intro len id s; exact Out.Below.refl _
  | succ fuel ih =>
    intro len id s
    unfold extCopyLoop
    refine Out.Below.ite ?_ (Out.Below.refl _)
    exact (h _ _ _ _ _).bind (fun _ => (Out.Below.refl _).bind (fun _ => ih _ _ _))

theorem extCopies_below {τ : Type} {f g : BlockProvider τ} (h : NextBelow f g) (useAdd : Bool) : ∀ l (s : ReconSt τ),
    (extCopies f useAdd l s).Below (extCopies g useAdd l s) := by
  intro l
  induction l with
  | nil => intro s; exact Out.Below.refl _
  | cons c l ih =>
    intro s
    unfold extCopies
    exact (extCopyLoop_below h useAdd _ _ _ _).bind (fun _ => ih _)

theorem reconLoop_below {τ : Type} {f g : BlockProvider τ} (h : NextBelow f g) (useAdd : Bool) :
    ∀ ints ext intData (s : ReconSt τ), (reconLoop f useAdd ints ext intData s).Below (reconLoop g useAdd ints ext intData s) := by
  intro ints
  induction ints with
  | nil => intro ext d s; exact Out.Below.refl _
  | cons c ints ih =>
    intro ext d s
    unfold reconLoop
    exact Out.Below.ite (Out.Below.refl _) ((extCopies_below h useAdd _ _).bind
      (fun _ => (Out.Below.refl _).bind (fun _ => ih _ _ _)))

theorem reconWrites_below {τ : Type} {f g : BlockProvider τ} (h : NextBelow f g) (c : τ) (useAdd : Bool)
    (ext int : List (Nat × Nat)) (intData add : Bytes) :
    (reconWrites f c useAdd ext int intData add).Below (reconWrites g c useAdd ext int intData add) :=
  (reconLoop_below h useAdd _ _ _ _).bind (fun _ => Out.Below.refl _)

/-! ## The states and blocks of a source that goes on -/

/-- The states. -/
def goStates (step : σ → Out (Bytes × σ)) (s0 : σ) : Nat → σ
  | 0 => s0
  | k + 1 => match goesOn step (goStates step s0 k) with
    | .ok (_, s) => s
    | _ => s0

/-- The blocks. -/
def goBlocks (step : σ → Out (Bytes × σ)) (s0 : σ) (k : Nat) : Bytes :=
  match goesOn step (goStates step s0 k) with
  | .ok (b, _) => b
  | _ => []

theorem goesOn_ok {step : σ → Out (Bytes × σ)} {I : σ → Prop} (hstep : ∀ s, I s → (step s).Good (fun x => x.1.length = blockSize ∧ I x.2))
    {s : σ} (hs : I s) : ∃ b s', goesOn step s = .ok (b, s') ∧ b.length = blockSize ∧ I s' := by
  have h := hstep s hs
  unfold goesOn
  cases hx : step s with
  | ok x =>
    rw [hx] at h
    exact ⟨x.1, x.2, rfl, h.1, h.2⟩
  | err e => exact ⟨zeros blockSize, s, rfl, zeros_length _, hs⟩
  | ub => rw [hx] at h; exact absurd h id
  | loop => rw [hx] at h; exact absurd h id

theorem goStates_inv {step : σ → Out (Bytes × σ)} {I : σ → Prop} (hstep : ∀ s, I s → (step s).Good (fun x => x.1.length = blockSize ∧ I x.2))
    {s0 : σ} (hs : I s0) : ∀ k, I (goStates step s0 k) := by
  intro k
  induction k with
  | zero => exact hs
  | succ k ih =>
    obtain ⟨b, s', h1, _, h3⟩ := goesOn_ok hstep ih
    unfold goStates
    rw [h1]
    exact h3

theorem goes_srcOk {step : σ → Out (Bytes × σ)} {I : σ → Prop} (hstep : ∀ s, I s → (step s).Good (fun x => x.1.length = blockSize ∧ I x.2))
    {s0 : σ} (hs : I s0) (n : Nat) :
    SrcOk (goesOn step) (goStates step s0) (goBlocks step s0) n ∧ ∀ k, (goBlocks step s0 k).length = blockSize := by
  have key : ∀ k, goesOn step (goStates step s0 k) = .ok (goBlocks step s0 k, goStates step s0 (k + 1)) ∧
      (goBlocks step s0 k).length = blockSize := by
    intro k
    obtain ⟨b, s', h1, h2, _⟩ := goesOn_ok hstep (goStates_inv hstep hs k)
    have e1 : goBlocks step s0 k = b := by unfold goBlocks; rw [h1]
    have e2 : goStates step s0 (k + 1) = s' := by show (match goesOn step (goStates step s0 k) with | .ok (_, s) => s | _ => s0) = s'; rw [h1]
    rw [h1, e1, e2]
    exact ⟨rfl, h2⟩
  exact ⟨fun k _ => (key k).1, fun k => (key k).2⟩

/-- Blocks one after the other. -/
def joinBlocks (B : Nat → Bytes) (n : Nat) : Bytes := ((List.range n).map B).flatten

theorem joinBlocks_succ (B : Nat → Bytes) (n : Nat) : joinBlocks B (n + 1) = joinBlocks B n ++ B n := by
  simp [joinBlocks, List.range_succ]

theorem joinBlocks_length {B : Nat → Bytes} (hB : ∀ k, (B k).length = blockSize) : ∀ n, (joinBlocks B n).length = blockSize * n := by
  intro n
  induction n with
  | zero => rfl
  | succ n ih => rw [joinBlocks_succ, List.length_append, ih, hB, Nat.mul_add, Nat.mul_one]

theorem joinBlocks_slice {B : Nat → Bytes} (hB : ∀ k, (B k).length = blockSize) {k : Nat} : ∀ n, k < n →
    slice (joinBlocks B n) (blockSize * k) blockSize = B k := by
  have hbs : blockSize = 8192 := rfl
  intro n
  induction n with
  | zero => intro h; omega
  | succ n ih =>
    intro hk
    have hl := joinBlocks_length hB n
    rw [joinBlocks_succ]
    by_cases h : k = n
    · subst h
      unfold slice
      rw [List.drop_append, hl, Nat.sub_self, List.drop_eq_nil_of_le (by omega), List.nil_append, List.drop_zero,
        List.take_of_length_le (by rw [hB]; exact Nat.le_refl _)]
    · have hle : blockSize * k + blockSize ≤ blockSize * n := by
        rw [← Nat.mul_succ]
        exact Nat.mul_le_mul_left _ (by omega)
      rw [← ih (by omega)]
      exact slice_prefix (List.prefix_append _ _) _ _ (by omega)

theorem slice_take_prefix (a : Bytes) (n i m : Nat) : slice (a.take n) i m <+: slice a i m := by
  unfold slice
  rw [List.drop_take, List.take_take]
  exact List.take_prefix_take_left (Nat.min_le_left _ _)

/-! ## The loop over plain data -/

theorem applyAdd_good (useAdd : Bool) (chunk add : Bytes) :
    (applyAdd useAdd chunk add).Good (fun x => x.1.length = chunk.length) := by
  unfold applyAdd
  refine Out.Good.ite (fun _ => Out.Good.ite (fun h => ?_) (fun _ => trivial)) (fun _ => rfl)
  show (List.zipWith _ _ _).length = _
  rw [List.length_zipWith, List.length_take]
  omega

theorem extCopyLoop_good {old : Bytes} (hold : old.length < 2^63) (useAdd : Bool) : ∀ fuel len (t : ReconSt Unit), len < fuel →
    t.extOff + len ≤ old.length →
    (extCopyLoop (flatNext old) useAdd fuel len (blockId t.extOff) t).Good
      (fun t' => t'.extOff = t.extOff + len ∧ t'.out.flatten.length = t.out.flatten.length + len) := by
  have hbs : blockSize = 8192 := rfl
  intro fuel
  induction fuel with
  | zero => intro len t h; omega
  | succ fuel ih =>
    intro len t hf hl
    unfold extCopyLoop
    refine Out.Good.ite (fun h0 => ?_) (fun h0 => ⟨by omega, by omega⟩)
    have hdm := Nat.div_add_mod t.extOff blockSize
    have hlt : t.extOff % blockSize < blockSize := Nat.mod_lt _ (by decide)
    have hn : blockSize * (blockId t.extOff + 1) - t.extOff = blockSize - t.extOff % blockSize := by
      unfold blockId
      rw [Nat.mul_add, Nat.mul_one]
      omega
    have e : flatNext old t.blk t.extOff len t.done (blockId t.extOff) =
        .ok (slice old t.extOff (min (blockSize - t.extOff % blockSize) len), ()) := by
      unfold flatNext
      simp only [hn]
      rw [if_pos ⟨trivial, by omega⟩]
    rw [e, Out.bind_ok]
    have hbl : (slice old t.extOff (min (blockSize - t.extOff % blockSize) len)).length = min (blockSize - t.extOff % blockSize) len :=
      slice_length (by omega)
    simp only
    generalize hb : slice old t.extOff (min (blockSize - t.extOff % blockSize) len) = b at hbl
    refine (applyAdd_good useAdd b t.add).bind ?_
    rintro ⟨b', add'⟩ hb'
    simp only at hb' ⊢
    have hw1 : (len + 2 ^ 64 - b.length) % 2 ^ 64 = len - b.length := by omega
    have hw2 : (t.extOff + b.length) % 2 ^ 64 = t.extOff + b.length := Nat.mod_eq_of_lt (by omega)
    rw [hw1, hw2]
    by_cases hlast : len - b.length = 0
    · have hfu : ∃ f, fuel = f + 1 := ⟨fuel - 1, by omega⟩
      obtain ⟨f, rfl⟩ := hfu
      rw [hlast, extCopyLoop, if_neg (by omega)]
      refine ⟨by simp only; omega, ?_⟩
      simp only [List.flatten_append, List.length_append, List.flatten_cons, List.flatten_nil, List.append_nil]
      omega
    · have hid : blockId t.extOff + 1 = blockId (t.extOff + b.length) := by
        unfold blockId
        rw [hbl, show t.extOff + min (blockSize - t.extOff % blockSize) len =
          blockSize * (t.extOff / blockSize + 1) by rw [Nat.mul_add, Nat.mul_one]; omega]
        rw [Nat.mul_div_cancel_left _ (by decide)]
      rw [hid]
      refine (ih (len - b.length) { t with blk := (), extOff := t.extOff + b.length, add := add', out := t.out ++ [b'] }
        (by omega) (by simp only; omega)).mono ?_
      intro x ⟨h1, h2⟩
      simp only [List.flatten_append, List.length_append, List.flatten_cons, List.flatten_nil, List.append_nil] at h1 h2
      exact ⟨by omega, by omega⟩

theorem extCopies_good {old : Bytes} (hold : old.length < 2^63) (useAdd : Bool) (l2 : List (Nat × Nat)) :
    ∀ (l1 : List (Nat × Nat)) (t : ReconSt Unit), CopiesInside old.length t.extOff (l1 ++ l2) →
    (extCopies (flatNext old) useAdd l1 t).Good (fun t' => CopiesInside old.length t'.extOff l2 ∧
      t'.out.flatten.length = t.out.flatten.length + (l1.map (·.2)).sum) := by
  intro l1
  induction l1 with
  | nil => intro t h; exact ⟨h, by simp⟩
  | cons c l1 ih =>
    intro t h
    obtain ⟨w, n⟩ := c
    obtain ⟨q, hq, hql, hrest⟩ := h
    have hoff : addS32 t.extOff w = q := addS32_nat _ _ _ hq.symm (by omega)
    unfold extCopies
    simp only [hoff]
    refine (extCopyLoop_good hold useAdd (n + 1) n { t with extOff := q } (by omega) hql).bind ?_
    rintro t' ⟨h1, h2⟩
    refine (ih { t' with done := t'.done + 1 } (by simp only [h1]; exact hrest)).mono ?_
    rintro x ⟨h3, h4⟩
    refine ⟨h3, ?_⟩
    rw [h4]
    simp only [List.map_cons, List.sum_cons, h2]
    omega

/-- The number of bytes that copies produce: internal copies `ints` (number of external copies before
    it, length) and external copies `exts` (seek, length), as far as they are used. -/
def producedBytes (ints exts : List (Nat × Nat)) : Nat :=
  (ints.map (·.2)).sum + ((exts.take (ints.map (·.1)).sum).map (·.2)).sum

theorem reconLoop_good {old : Bytes} (hold : old.length < 2^63) (useAdd : Bool) : ∀ (ints ext : List (Nat × Nat)) (d : Bytes)
    (t : ReconSt Unit), CopiesInside old.length t.extOff ext → (ints.map (·.2)).sum ≤ d.length →
    (reconLoop (flatNext old) useAdd ints ext d t).Good
      (fun t' => t'.out.flatten.length = t.out.flatten.length + producedBytes ints ext) := by
  intro ints
  induction ints with
  | nil => intro ext d t _ _; simp [reconLoop, producedBytes, Out.Good]
  | cons c ints ih =>
    intro ext d t hc hs
    obtain ⟨todo, len⟩ := c
    simp only [List.map_cons, List.sum_cons] at hs
    unfold reconLoop
    refine Out.Good.ite (fun _ => trivial) (fun ht => ?_)
    refine (extCopies_good hold useAdd (ext.drop todo) (ext.take todo) t (by rw [List.take_append_drop]; exact hc)).bind ?_
    rintro t1 ⟨h1, h2⟩
    refine (rdBlk_good (by omega)).bind ?_
    intro b hb
    refine (ih (ext.drop todo) (d.drop len) { t1 with out := t1.out ++ [b] } h1 (by rw [List.length_drop]; omega)).mono ?_
    intro x hx
    rw [hx]
    simp only [List.flatten_append, List.length_append, List.flatten_cons, List.flatten_nil, List.append_nil, h2, hb,
      producedBytes, List.map_cons, List.sum_cons, List.take_add, List.map_append, List.sum_append]
    omega

theorem reconWrites_flat_good {old : Bytes} (hold : old.length < 2^63) (useAdd : Bool) (ints ext : List (Nat × Nat)) (d add : Bytes)
    (hc : CopiesInside old.length 0 ext) (hs : (ints.map (·.2)).sum ≤ d.length) :
    (reconWrites (flatNext old) () useAdd ext ints d add).Good (fun ws => ws.flatten.length = producedBytes ints ext) := by
  refine (reconLoop_good hold useAdd ints ext d ⟨(), 0, 0, add, []⟩ hc hs).bind ?_
  intro t ht
  show _ = _
  rw [ht]
  simp

/-! ## The loop over the block cache -/

theorem reconWrites_good {step : σ → Out (Bytes × σ)} {I : σ → Prop}
    (hstep : ∀ s, I s → (step s).Good (fun x => x.1.length = blockSize ∧ I x.2)) {s0 : σ} (hs0 : I s0)
    {extLen : Nat} {exts : List (Nat × Nat)} {cfg : CacheCfg} (hcfg : blocksCreate extLen exts = .ok cfg)
    (hlen : extLen < 2^64) (hc : CopiesInside extLen 0 exts) (he : EndsPositive 0 exts) (cleanup : Nat) (useAdd : Bool)
    (ints : List (Nat × Nat)) (d add : Bytes) (hs : (ints.map (·.2)).sum ≤ d.length) :
    (reconWrites (blocksNext cfg (rpmFiller cfg step)) (emptyCache s0 cleanup) useAdd exts ints d add).Good
      (fun ws => ws.flatten.length = producedBytes ints exts) := by
  have hbs : blockSize = 8192 := rfl
  unfold blocksCreate at hcfg
  split at hcfg
  · cases hcfg
  · rename_i hno
    have hpos : 0 < extLen := by
      rcases Nat.eq_zero_or_pos extLen with h | h
      · subst h; exact absurd (by decide) hno
      · exact h
    have hnb : blocksOf extLen = (extLen - 1) / blockSize + 1 := blocksOf_pos hpos hlen
    have hl : extLen < 2^63 := by rw [hbs] at hnb; omega
    obtain ⟨mx, hm1, _, hm3, _⟩ := markCopies_spec extLen hl hpos exts 0 0 (fun _ => 0) hc he (fun _ => Nat.le_refl _)
    rw [hm1, Out.bind_ok] at hcfg
    cases hcfg
    obtain ⟨hsrc, hB⟩ := goes_srcOk hstep hs0 (blocksOf extLen)
    refine Out.Good.below ?_ (reconWrites_below (g := blocksNext ⟨blocksOf extLen, mx, maxCoreBlocks⟩
      (rpmFiller ⟨blocksOf extLen, mx, maxCoreBlocks⟩ (goesOn step))) (fun c off len cnt id => blocksNext_below
        (fun c a id cnt => fillSeq_below _ step _ c a id cnt) c off len cnt id) _ _ _ _ _ _)
    have hold : ((joinBlocks (goBlocks step s0) (blocksOf extLen)).take extLen).length = extLen := by
      rw [List.length_take, joinBlocks_length hB, hnb, Nat.mul_add]
      have := Nat.div_add_mod (extLen - 1) blockSize
      have := Nat.mod_lt (extLen - 1) (show 0 < blockSize by decide)
      omega
    rw [reconWrites_refine (old := (joinBlocks (goBlocks step s0) (blocksOf extLen)).take extLen)
      (cfg := ⟨blocksOf extLen, mx, maxCoreBlocks⟩) (fill := rpmFiller _ (goesOn step)) (src := s0) (cleanup := cleanup)
      (K := CacheOk _ (goBlocks step s0) false (fun k s => s = goStates step s0 k))
      (serves_cacheOk (rpmFiller_ok hsrc) (show 0 < maxCoreBlocks by decide) (fun k _ => hB k)) (fun k _ => hB k)
      (fun k hk => ?_) (by omega) useAdd ints exts d add (fun id => emptyCache_ok rfl) ?_]
    · exact reconWrites_flat_good (by omega) useAdd ints exts d add (by rw [hold]; exact hc) hs
    · rw [hold]
      exact ready_of_placed _ extLen exts 0 0 hc hm3
    · rw [← joinBlocks_slice hB (blocksOf extLen) hk]
      exact slice_take_prefix _ _ _ _

end Drpm
