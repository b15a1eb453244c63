import Verif.EraseLemmas
/-!
# The block cache over a source that may fail and may hand over more than one block

As in `EraseLemmas`, nothing is said about the contents of the blocks but their length.
-/

namespace Drpm

variable {σ : Type}

/-- What all blocks are taken for. -/
def blankBlock : Nat → Bytes := fun _ => zeros blockSize

/-- What a filler that may fail must do. -/
def FillsMay (cfg : CacheCfg) (I : σ → Prop) (fill : Filler σ) : Prop :=
  ∀ (c : Cache σ) (a id cnt : Nat), id < cfg.nblk → FInv cfg blankBlock c.erase cnt id (some a) → a ∈ c.core → I c.src →
    (fill c a id cnt).Good (fun c' => FInv cfg blankBlock c'.erase cnt id (some a) ∧ a ∈ c'.core ∧
      ((c'.heap a).type = .core ∨ (c'.heap a).type = .nopage) ∧ (c'.heap a).id = id ∧ (c'.heap a).buf.length = blockSize ∧ I c'.src)

/-- The state of the cache between two calls of `blocks_next`. -/
structure CacheMay (cfg : CacheCfg) (I : σ → Prop) (c : Cache σ) (cnt id : Nat) : Prop where
  inv : FInv cfg blankBlock c.erase cnt id none
  lastOk : ∀ a, c.last = some a → a ∈ c.core
  srcOk : I c.src

/-- A cache with a block that has just been looked up. -/
def Looked (cfg : CacheCfg) (I : σ → Prop) (cnt id : Nat) (x : Nat × Cache σ) : Prop :=
  FInv cfg blankBlock x.2.erase cnt id none ∧ x.1 ∈ x.2.core ∧ (x.2.heap x.1).id = id ∧ I x.2.src

variable {cfg : CacheCfg} {I : σ → Prop} {fill : Filler σ}

theorem erase_buf {c : Cache σ} {a : Nat} (h : (c.heap a).buf.length = blockSize) (k : Nat) :
    (c.erase.heap a).buf = blankBlock k := by
  show zeros _ = zeros _
  rw [h]

theorem getBlock_may (hfill : FillsMay cfg I fill) (hmax : 0 < cfg.maxCore) {c : Cache σ} {cnt id : Nat}
    (h : CacheMay cfg I c cnt id) (hid : id < cfg.nblk) (hm : cnt ≤ cfg.max id) :
    (getBlock cfg fill c id cnt).Good (Looked cfg I cnt id) := by
  unfold getBlock
  have h0 : FInv cfg blankBlock (Cache.erase { c with last := none }) cnt id none :=
    h.inv.setMisc none c.cleanup c.rpmId ()
  obtain ⟨a, c1', hg, g⟩ := grabBlock_finv h0 hmax
  have hfol := grabBlock_erase (cfg := cfg) (c := { c with last := none }) (I := I) h.srcOk id cnt
  rw [hg] at hfol
  refine Out.Good.bind (P := fun x => x.1 = a ∧ CacheRel I x.2 c1') ?_ ?_
  · rcases hfol with ⟨e, he⟩ | ⟨x, he, h1, h2⟩
    · rw [he]; trivial
    · rw [he]; exact ⟨h1.symm, h2⟩
  rintro ⟨a', c1⟩ ⟨h1, h2, h3⟩
  simp only at h1 h2 h3 ⊢
  subst h1 h3
  have ha : a' ∈ c1.core := g.mem
  have htab := g.toFInv.setTab id (some a') (fun n hn => by
    cases hn
    exact ⟨g.mem, (fun _ => rfl), fun e => absurd rfl e⟩)
  refine Out.Good.bind (P := fun c' => Looked cfg I cnt id (a', c')) ?_ (fun c' hc => hc)
  unfold loadBlock
  rw [tabRd, if_pos hid, Out.bind_ok, tabWr_ok hid, Out.bind_ok]
  have hfillcase : (fill { c1 with table := upd c1.table id (some a') } a' id cnt).Good (fun c' => Looked cfg I cnt id (a', c')) := by
    refine (hfill { c1 with table := upd c1.table id (some a') } a' id cnt hid htab ha h2).mono ?_
    rintro c' ⟨f1, f2, f3, f4, f5, f6⟩
    exact ⟨f1.finish f3 f4 hid (erase_buf f5 _), f2, f4, f6⟩
  cases ht : c1.table id with
  | none => exact hfillcase
  | some p =>
    simp only
    by_cases hpt : (c1.heap p).type = .page
    rotate_left
    · rw [if_neg hpt]; exact hfillcase
    · rw [if_pos hpt]
      have hty : (c1.heap a').type = .free := g.type
      have hap : p ≠ a' := fun e => by rw [e, hty] at hpt; cases hpt
      rcases g.tab id p ht with ⟨q1, q2, q3⟩ | ⟨q1, q2⟩
      · exfalso
        rcases (g.coreOk p q1 (fun e => hap (Option.some.inj e).symm)).1 with e | e <;>
          · replace e : (c1.heap p).type = _ := e
            rw [e] at hpt; cases hpt
      · obtain ⟨t1, t2, t3, t4⟩ := g.pageOk p q1
        by_cases hpid : (c1.heap p).id = id
        · have hlen : (c1.pageFile (c1.heap p).off).length = blockSize := by
            have e : zeros (c1.pageFile (c1.heap p).off).length = zeros blockSize := t4
            have := congrArg List.length e
            rwa [zeros_length, zeros_length] at this
          unfold readPage
          simp only
          rw [if_neg (by simp [hpt, hty]), hpid, tabWr_ok hid]
          have h3 := htab.setHole (a := a') g.mem { c1.erase.heap a' with type := .core, id := id, buf := zeros (c1.pageFile (c1.heap p).off).length }
          have h4 := h3.setTab id (some a') (fun n hn => by
            cases hn
            exact ⟨g.mem, (fun _ => rfl), fun e => absurd rfl e⟩)
          refine ⟨?_, ha, by simp [upd], h2⟩
          have h5 := h4.finish (by simp [upd]) (by simp [upd]) hid (by simp only [upd, if_true]; rw [hlen]; rfl)
          refine Eq.mp (congrArg (fun z => FInv cfg blankBlock z cnt id none) ?_) h5
          unfold Cache.erase
          simp only [erase_upd]
          rfl
        · exfalso
          rcases q2 with q2 | q2
          · exact hpid q2
          · omega

theorem lastBlock_may (hfill : FillsMay cfg I fill) (hmax : 0 < cfg.maxCore) {c : Cache σ} {cnt id : Nat}
    (h : CacheMay cfg I c cnt id) (hid : id < cfg.nblk) (hm : cnt ≤ cfg.max id) :
    (lastBlock cfg fill c cnt id).Good (Looked cfg I cnt id) := by
  have hfind : (findBlock cfg fill c cnt id).Good (Looked cfg I cnt id) := by
    unfold findBlock
    rw [tabRd, if_pos hid, Out.bind_ok]
    cases ht : c.table id with
    | none => exact getBlock_may hfill hmax h hid hm
    | some a =>
      simp only
      refine Out.Good.ite (fun _ => getBlock_may hfill hmax h hid hm) (fun hnp => ?_)
      rcases h.inv.tab id a ht with ⟨q1, _, q3⟩ | ⟨q1, _⟩
      · exact ⟨h.inv, q1, q3 (by simp), h.srcOk⟩
      · exact absurd (h.inv.pageOk a q1).1 hnp
  unfold lastBlock
  cases hl : c.last with
  | none => exact hfind
  | some a =>
    simp only
    exact Out.Good.ite (fun he => ⟨h.inv, h.lastOk a hl, he.symm, h.srcOk⟩) (fun _ => hfind)

theorem blocksNext_may (hfill : FillsMay cfg I fill) (hmax : 0 < cfg.maxCore) {c : Cache σ} {off len cnt id : Nat}
    (h : CacheMay cfg I c cnt id) (hid : id < cfg.nblk) (hm : cnt ≤ cfg.max id) (hlen : len + blockSize < 2^64) :
    (blocksNext cfg fill c off len cnt id).Good (fun x => x.1.length = min len (blockSize - off % blockSize) ∧
      CacheMay cfg I x.2 cnt id) := by
  unfold blocksNext
  refine (lastBlock_may hfill hmax h hid hm).bind ?_
  rintro ⟨a, c'⟩ ⟨h2, h3, h4, h5⟩
  simp only at h2 h3 h4 h5 ⊢
  have hbl : (c'.heap a).buf.length = blockSize := by
    have e : zeros (c'.heap a).buf.length = zeros blockSize := (h2.coreOk a h3 (by simp)).2.2
    have := congrArg List.length e
    rwa [zeros_length, zeros_length] at this
  have hlt : off % blockSize < blockSize := Nat.mod_lt _ (by decide)
  have hn : (if (off % blockSize + len) % 2 ^ 64 > blockSize then blockSize - off % blockSize else len) =
      min len (blockSize - off % blockSize) := by
    rw [Nat.mod_eq_of_lt (by omega)]
    split <;> omega
  rw [hn]
  refine (rdBlk_good (by omega)).bind ?_
  intro b hb
  refine ⟨hb, h2.setMisc (some a) c'.cleanup c'.rpmId (), ?_, h5⟩
  intro x hx
  simp only [Option.some.injEq] at hx
  subst hx; exact h3

theorem CacheMay.next {c : Cache σ} {cnt id cnt' id' : Nat} (h : CacheMay cfg I c cnt id) (hl : cnt ≤ cnt') :
    CacheMay cfg I c cnt' id' := ⟨h.inv.mono hl, h.lastOk, h.srcOk⟩

/-- One external copy. -/
theorem extCopyLoop_may (hfill : FillsMay cfg I fill) (hmax : 0 < cfg.maxCore) {limit : Nat} (hlim : limit < 2^63) (useAdd : Bool) :
    ∀ fuel len (t : ReconSt (Cache σ)), len < fuel → t.extOff + len ≤ limit →
      (∀ j, t.extOff / blockSize ≤ j → blockSize * j < t.extOff + len → j < cfg.nblk ∧ t.done ≤ cfg.max j) →
      (∀ id, CacheMay cfg I t.blk t.done id) →
      (extCopyLoop (blocksNext cfg fill) useAdd fuel len (blockId t.extOff) t).Good (fun t' => t'.extOff = t.extOff + len ∧
        t'.done = t.done ∧ t'.out.flatten.length = t.out.flatten.length + len ∧ ∀ id, CacheMay cfg I t'.blk t'.done id) := by
  have hbs : blockSize = 8192 := rfl
  intro fuel
  induction fuel with
  | zero => intro len t h; omega
  | succ fuel ih =>
    intro len t hf hl hr hc
    unfold extCopyLoop
    refine Out.Good.ite (fun h0 => ?_) (fun h0 => ⟨by omega, rfl, by omega, hc⟩)
    have hdm := Nat.div_add_mod t.extOff blockSize
    have hlt : t.extOff % blockSize < blockSize := Nat.mod_lt _ (by decide)
    obtain ⟨r1, r2⟩ := hr (blockId t.extOff) (Nat.le_refl _) (by unfold blockId; omega)
    refine (blocksNext_may hfill hmax (hc _) r1 r2 (by omega)).bind ?_
    rintro ⟨b, c'⟩ ⟨hbl, hc'⟩
    simp only at hbl hc' ⊢
    refine (applyAdd_good useAdd b t.add).bind ?_
    rintro ⟨b', add'⟩ hb'
    simp only at hb' ⊢
    have hw1 : (len + 2 ^ 64 - b.length) % 2 ^ 64 = len - b.length := by omega
    have hw2 : (t.extOff + b.length) % 2 ^ 64 = t.extOff + b.length := Nat.mod_eq_of_lt (by omega)
    rw [hw1, hw2]
    by_cases hlast : len - b.length = 0
    · have hfu : ∃ f, fuel = f + 1 := ⟨fuel - 1, by omega⟩
      obtain ⟨f, rfl⟩ := hfu
      rw [hlast, extCopyLoop, if_neg (by omega)]
      refine ⟨by simp only; omega, rfl, ?_, fun id => hc'.next (Nat.le_refl _)⟩
      simp only [List.flatten_append, List.length_append, List.flatten_cons, List.flatten_nil, List.append_nil]
      omega
    · have hbl' : b.length = blockSize - t.extOff % blockSize := by omega
      have hid : blockId t.extOff + 1 = blockId (t.extOff + b.length) := by
        unfold blockId
        rw [hbl', show t.extOff + (blockSize - t.extOff % blockSize) =
          blockSize * (t.extOff / blockSize + 1) by rw [Nat.mul_add, Nat.mul_one]; omega]
        rw [Nat.mul_div_cancel_left _ (by decide)]
      rw [hid]
      refine (ih (len - b.length) { t with blk := c', extOff := t.extOff + b.length, add := add', out := t.out ++ [b'] }
        (by omega) (by simp only; omega) (fun j hj1 hj2 => ?_) (fun id => hc'.next (Nat.le_refl _))).mono ?_
      · simp only at hj1 hj2 ⊢
        exact hr j (Nat.le_trans (Nat.div_le_div_right (by omega)) hj1) (by omega)
      · rintro x ⟨h1, h2, h3, h4⟩
        simp only [List.flatten_append, List.length_append, List.flatten_cons, List.flatten_nil, List.append_nil] at h1 h2 h3
        exact ⟨by omega, h2, by omega, h4⟩

/-- The external copies before an internal copy. -/
theorem extCopies_may (hfill : FillsMay cfg I fill) (hmax : 0 < cfg.maxCore) {limit : Nat} (hlim : limit < 2^63) (useAdd : Bool)
    (l2 : List (Nat × Nat)) : ∀ (l1 : List (Nat × Nat)) (t : ReconSt (Cache σ)), Ready cfg limit t.done t.extOff (l1 ++ l2) →
      (∀ id, CacheMay cfg I t.blk t.done id) →
      (extCopies (blocksNext cfg fill) useAdd l1 t).Good (fun t' => Ready cfg limit t'.done t'.extOff l2 ∧
        t'.out.flatten.length = t.out.flatten.length + (l1.map (·.2)).sum ∧ ∀ id, CacheMay cfg I t'.blk t'.done id) := by
  intro l1
  induction l1 with
  | nil => intro t hr hc; exact ⟨hr, by simp, hc⟩
  | cons c l1 ih =>
    intro t hr hc
    obtain ⟨w, n⟩ := c
    obtain ⟨q, hq, hql, hj, hrest⟩ := hr
    have hoff : addS32 t.extOff w = q := addS32_nat _ _ _ hq.symm (by omega)
    unfold extCopies
    simp only [hoff]
    refine (extCopyLoop_may hfill hmax hlim useAdd (n + 1) n { t with extOff := q } (by omega) hql hj hc).bind ?_
    rintro t' ⟨f1, f2, f3, f4⟩
    simp only at f1 f2 f3
    refine (ih { t' with done := t'.done + 1 } (by simp only [f1, f2]; exact hrest)
      (fun id => (f4 id).next (Nat.le_succ _))).mono ?_
    rintro x ⟨g1, g2, g3⟩
    refine ⟨g1, ?_, g3⟩
    rw [g2]
    simp only [List.map_cons, List.sum_cons, f3]
    omega

/-- The whole loop. -/
theorem reconLoop_may (hfill : FillsMay cfg I fill) (hmax : 0 < cfg.maxCore) {limit : Nat} (hlim : limit < 2^63) (useAdd : Bool) :
    ∀ (ints ext : List (Nat × Nat)) (d : Bytes) (t : ReconSt (Cache σ)), Ready cfg limit t.done t.extOff ext →
      (∀ id, CacheMay cfg I t.blk t.done id) → (ints.map (·.2)).sum ≤ d.length →
      (reconLoop (blocksNext cfg fill) useAdd ints ext d t).Good
        (fun t' => t'.out.flatten.length = t.out.flatten.length + producedBytes ints ext) := by
  intro ints
  induction ints with
  | nil => intro ext d t _ _ _; simp [reconLoop, producedBytes, Out.Good]
  | cons c ints ih =>
    intro ext d t hr hc hs
    obtain ⟨todo, len⟩ := c
    simp only [List.map_cons, List.sum_cons] at hs
    unfold reconLoop
    refine Out.Good.ite (fun _ => trivial) (fun ht => ?_)
    refine (extCopies_may hfill hmax hlim useAdd (ext.drop todo) (ext.take todo) t
      (by rw [List.take_append_drop]; exact hr) hc).bind ?_
    rintro t1 ⟨h1, h2, h3⟩
    refine (rdBlk_good (by omega)).bind ?_
    intro b hb
    refine (ih (ext.drop todo) (d.drop len) { t1 with out := t1.out ++ [b] } h1 h3 (by rw [List.length_drop]; omega)).mono ?_
    intro x hx
    rw [hx]
    simp only [List.flatten_append, List.length_append, List.flatten_cons, List.flatten_nil, List.append_nil, h2, hb,
      producedBytes, List.map_cons, List.sum_cons, List.take_add, List.map_append, List.sum_append]
    omega

/-- The loop over a source that may fail. -/
theorem reconWrites_may {s0 : σ} (h0 : I s0) {extLen : Nat} {exts : List (Nat × Nat)} {cfg : CacheCfg} {fill : Filler σ}
    (hfill : FillsMay cfg I fill) (hcfg : blocksCreate extLen exts = .ok cfg)
    (hlen : extLen < 2^64) (hc : CopiesInside extLen 0 exts) (he : EndsPositive 0 exts) (cleanup : Nat) (useAdd : Bool)
    (ints : List (Nat × Nat)) (d add : Bytes) (hs : (ints.map (·.2)).sum ≤ d.length) :
    (reconWrites (blocksNext cfg fill) (emptyCache s0 cleanup) useAdd exts ints d add).Good
      (fun ws => ws.flatten.length = producedBytes ints exts) := by
  have hbs : blockSize = 8192 := rfl
  unfold blocksCreate at hcfg
  split at hcfg
  · cases hcfg
  · rename_i hno
    have hpos : 0 < extLen := by
      rcases Nat.eq_zero_or_pos extLen with h | h
      · subst h; exact absurd (by decide) hno
      · exact h
    have hnb : blocksOf extLen = (extLen - 1) / blockSize + 1 := blocksOf_pos hpos hlen
    have hl : extLen < 2^63 := by rw [hbs] at hnb; omega
    obtain ⟨mx, hm1, _, hm3, _⟩ := markCopies_spec extLen hl hpos exts 0 0 (fun _ => 0) hc he (fun _ => Nat.le_refl _)
    rw [hm1, Out.bind_ok] at hcfg
    cases hcfg
    unfold reconWrites
    refine (reconLoop_may hfill (show 0 < maxCoreBlocks by decide) hl useAdd ints exts d ⟨emptyCache s0 cleanup, 0, 0, add, []⟩
      (ready_of_placed _ extLen exts 0 0 hc hm3) (fun id => ?_) hs).bind ?_
    · exact ⟨(emptyCache_any (I := fun _ => True) trivial).inv, (fun a h => by cases h), h0⟩
    · intro t ht
      show _ = _
      rw [ht]
      simp

end Drpm
