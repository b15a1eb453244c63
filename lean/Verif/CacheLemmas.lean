import Verif.BlocksLemmas
import Verif.ReconLemmas
/-!
# Filling blocks and `blocks_next`
-/

namespace Drpm

variable {σ : Type}

/-- The hole is filled. -/
theorem BInv.finish {cfg : CacheCfg} {B : Nat → Bytes} {np : Bool} {c : Cache σ} {cnt id a : Nat}
    (h : BInv cfg B np c cnt id (some a) [id]) (ha : a ∈ c.core)
    (ht : (np = false ∧ (c.heap a).type = .core ∧ (c.heap a).id < c.rpmId) ∨
      (np = true ∧ (c.heap a).type = .nopage ∧ c.rpmId = 0))
    (hid : (c.heap a).id = id) (hn : id < cfg.nblk) (hb : (c.heap a).buf = B id)
    (htab : c.table id = some a) : BInv cfg B np c cnt id none [] :=
  { nodup := h.nodup, lt := h.lt, pageOk := h.pageOk, offInj := h.offInj, count := h.count, small := h.small,
    freeOk := h.freeOk, rpmLe := h.rpmLe
    coreOk := by
      intro x hx _
      by_cases hxa : x = a
      · subst hxa
        exact ⟨ht, by rw [hid]; exact hn, by rw [hid]; exact hb, by rw [hid]; exact htab⟩
      · exact h.coreOk x hx (fun e => hxa (Option.some.inj e).symm)
    tab := by
      intro j x hx
      rcases h.tab j x hx with ⟨h1, h2, h3⟩ | h1
      · left
        refine ⟨h1, (fun e => by cases e), fun _ => ?_⟩
        by_cases hxa : x = a
        · subst hxa
          have := h2 rfl
          simp only [List.mem_singleton] at this
          rw [hid, this]
        · exact h3 (fun e => hxa (Option.some.inj e).symm)
      · right; exact h1
    avail := by
      intro j hj hnd _
      by_cases hjid : j = id
      · subst hjid; exact ⟨a, htab, Or.inl ha⟩
      · exact h.avail j hj hnd (by simp [hjid]) }

/-- Setting the table entry of the block wanted to the hole. -/
theorem Grabbed.enter {cfg : CacheCfg} {B : Nat → Bytes} {np : Bool} {c0 c : Cache σ} {a cnt id : Nat}
    (h : Grabbed cfg B np c0 c a cnt id)
    (hid : ∀ x ∈ c.core, a ≠ x → (c.heap x).id ≠ id) :
    BInv cfg B np { c with table := upd c.table id (some a) } cnt id (some a) [id] :=
  { nodup := h.nodup, lt := h.lt, pageOk := h.pageOk, offInj := h.offInj, count := h.count, small := h.small,
    freeOk := h.freeOk, rpmLe := h.rpmLe
    coreOk := by
      intro x hx hne
      obtain ⟨b1, b2, b3, b4⟩ := h.coreOk x hx hne
      refine ⟨b1, b2, b3, ?_⟩
      simp only [upd]
      rw [if_neg (hid x hx (fun e => hne (by rw [e])))]
      exact b4
    tab := by
      intro j x hx
      simp only [upd] at hx
      split at hx
      · rename_i hj
        simp only [Option.some.injEq] at hx
        subst hx
        left
        exact ⟨h.mem, (fun _ => by simp [hj]), fun e => absurd rfl e⟩
      · rcases h.tab j x hx with ⟨h1, h2, h3⟩ | h1
        · left
          refine ⟨h1, (fun e => by have := h2 e; simp at this), h3⟩
        · right; exact h1
    avail := by
      intro j hj hnd hex
      simp only [List.mem_singleton] at hex
      simp only [upd, if_neg hex]
      exact h.avail j hj hnd (by simp) }

/-- One step of a sequential source. -/
theorem BInv.advance {cfg : CacheCfg} {B : Nat → Bytes} {c : Cache σ} {cnt id a : Nat} {ex : List Nat}
    {s : σ} {b : Bytes} (h : BInv cfg B false c cnt id (some a) [id]) (ha : a ∈ c.core)
    (hk : c.rpmId < cfg.nblk) (hid : id ∈ ex)
    (hnk : ¬ Needed cfg cnt id c.rpmId ∨ c.rpmId ∈ ex) :
    BInv cfg B false { c with src := s, rpmId := c.rpmId + 1,
                              heap := upd c.heap a { c.heap a with type := .core, id := c.rpmId, buf := b } }
      cnt id (some a) ex :=
  { nodup := h.nodup, lt := h.lt
    pageOk := (h.toPInv.setHeap _ (h.core_not_page ha)).pageOk
    offInj := (h.toPInv.setHeap _ (h.core_not_page ha)).offInj
    count := h.count
    small := h.small
    freeOk := by
      intro x hx
      have hx : x ∈ c.free := hx
      have hxa : x ≠ a := fun e => h.core_not_free ha (e ▸ hx)
      simp only [upd, if_neg hxa]
      exact h.freeOk x hx
    rpmLe := hk
    coreOk := by
      intro x hx hne
      have hxa : x ≠ a := fun e => hne (by rw [e])
      obtain ⟨b1, b2, b3, b4⟩ := h.coreOk x hx hne
      simp only [upd, if_neg hxa]
      refine ⟨?_, b2, b3, b4⟩
      rcases b1 with ⟨_, t, b1⟩ | ⟨b1, _⟩
      · left; exact ⟨trivial, t, by omega⟩
      · cases b1
    tab := by
      intro j x hx
      rcases h.tab j x hx with ⟨h1, h2, h3⟩ | ⟨h1, h2⟩
      · left
        refine ⟨h1, ?_, ?_⟩
        · intro e
          have := h2 e
          simp only [List.mem_singleton] at this
          rw [this]; exact hid
        · intro hne
          have hxa : x ≠ a := fun e => hne (by rw [e])
          simp only [upd, if_neg hxa]
          exact h3 hne
      · right; exact ⟨h1, by simp only; omega⟩
    avail := by
      intro j hj hnd hex
      simp only at hj
      have hjk : j ≠ c.rpmId := by
        rintro rfl
        rcases hnk with hnk | hnk
        · exact hnk hnd
        · exact hex hnk
      have hji : j ≠ id := fun e => hex (e ▸ hid)
      obtain ⟨x, h1, h2⟩ := h.avail j (by omega) hnd (by simp [hji])
      refine ⟨x, h1, ?_⟩
      rcases h2 with h2 | ⟨h2, h3⟩
      · left; exact h2
      · right
        have hxa : x ≠ a := fun e => h.core_not_page ha (e ▸ h2)
        refine ⟨h2, ?_⟩
        simp only [upd, if_neg hxa]
        exact h3 }

/-- A copy of block `k` is stored in the new core block `n`. -/
theorem BInv.addCore {cfg : CacheCfg} {B : Nat → Bytes} {c : Cache σ} {cnt id a k n : Nat}
    (h : BInv cfg B false c cnt id (some a) [id, k]) (hk : k < cfg.nblk)
    (hkr : k < c.rpmId) (hkc : ∀ x ∈ c.core, x ≠ a → (c.heap x).id ≠ k)
    {free' : List Nat} {next' cc : Nat} {blk : Blk}
    (hb1 : blk.type = .core) (hb2 : blk.id = k) (hb3 : blk.buf = B k)
    (hna : n ≠ a) (hnc : n ∉ c.core) (hnp : n ∉ c.pages) (hnf : n ∉ free')
    (hnod : ((n :: c.core) ++ free' ++ c.pages).Nodup)
    (hlt : ∀ x ∈ (n :: c.core) ++ free' ++ c.pages, x < next')
    (hcc : cc = c.core.length + 1 + free'.length) (hroom : cc ≤ cfg.maxCore) (hfree : ∀ x ∈ free', x ∈ c.free) :
    BInv cfg B false { c with heap := upd c.heap n blk, next := next', free := free',
                              core := n :: c.core, coreCount := cc, table := upd c.table k (some n) }
      cnt id (some a) [id] :=
  { nodup := hnod, lt := hlt
    pageOk := (h.toPInv.setHeap blk hnp).pageOk
    offInj := (h.toPInv.setHeap blk hnp).offInj
    count := by simp only [List.length_cons]; exact hcc
    small := hroom
    freeOk := by
      intro x hx
      have hx : x ∈ free' := hx
      have hxn : x ≠ n := fun e => hnf (e ▸ hx)
      simp only [upd, if_neg hxn]
      exact h.freeOk x (hfree x hx)
    rpmLe := h.rpmLe
    coreOk := by
      intro x hx hne
      simp only [List.mem_cons] at hx
      by_cases hxn : x = n
      · subst hxn
        simp only [upd, if_true, hb1, hb2, hb3]
        exact ⟨Or.inl ⟨trivial, trivial, hkr⟩, hk, trivial, trivial⟩
      · have hx : x ∈ c.core := by rcases hx with h | h; exact absurd h hxn; exact h
        have hxa : x ≠ a := fun e => hne (by rw [e])
        obtain ⟨b1, b2, b3, b4⟩ := h.coreOk x hx hne
        simp only [upd, if_neg hxn, if_neg (hkc x hx hxa)]
        exact ⟨by simpa using b1, b2, b3, b4⟩
    tab := by
      intro j x hx
      simp only [upd] at hx
      split at hx
      · rename_i hj
        simp only [Option.some.injEq] at hx
        subst hx
        left
        refine ⟨by simp, ?_, ?_⟩
        · intro e; exact absurd (Option.some.inj e).symm hna
        · intro _; simp [upd, hb2, hj]
      · rename_i hj
        rcases h.tab j x hx with ⟨h1, h2, h3⟩ | h1
        · left
          refine ⟨by simp [h1], ?_, ?_⟩
          · intro e
            have := h2 e
            simpa [hj] using this
          · intro hne
            have hxn : x ≠ n := fun e => hnc (e ▸ h1)
            simp only [upd, if_neg hxn]
            exact h3 hne
        · right; exact h1
    avail := by
      intro j hj hnd hex
      simp only [List.mem_singleton] at hex
      by_cases hjk : j = k
      · refine ⟨n, by simp [upd, hjk], Or.inl (by simp)⟩
      · obtain ⟨x, h1, h2⟩ := h.avail j hj hnd (by simp [hjk, hex])
        refine ⟨x, by simp only [upd, if_neg hjk]; exact h1, ?_⟩
        rcases h2 with h2 | ⟨h2, h3⟩
        · left; simp [h2]
        · right
          have hxn : x ≠ n := fun e => hnp (e ▸ h2)
          refine ⟨h2, ?_⟩
          simp only [upd, if_neg hxn]
          exact h3 }

/-- `push_block` stores the block just read. -/
theorem pushBlock_spec {cfg : CacheCfg} {B : Nat → Bytes} {c : Cache σ} {cnt id a k : Nat}
    (h : BInv cfg B false c cnt id (some a) [id, k]) (ha : a ∈ c.core) (hki : k ≠ id)
    (hk : k < cfg.nblk) (hkr : k < c.rpmId) (hkc : ∀ x ∈ c.core, x ≠ a → (c.heap x).id ≠ k)
    (ht : (c.heap a).type = .core) (hid : (c.heap a).id = k) (hb : (c.heap a).buf = B k) :
    ∃ c', pushBlock cfg c a cnt = .ok c' ∧ BInv cfg B false c' cnt id (some a) [id] ∧
      a ∈ c'.core ∧ c'.rpmId = c.rpmId ∧ c'.src = c.src ∧ c'.heap a = c.heap a ∧
      c'.table id = c.table id := by
  have hcases : c.free = [] ∨ ∃ a rest, c.free = a :: rest := by cases c.free <;> simp
  unfold pushBlock
  rcases hcases with hfree | ⟨n, rest, hfree⟩
  · rw [getFree_nil hfree]
    simp only
    split
    · -- a new block
      unfold copyBlock
      simp only [newCore]
      have hn := h.not_next
      have hne : c.next ≠ a := fun e => hn (by simp [e, ha])
      have haa : a ≠ c.next := hne.symm
      rw [tabWr_ok (by simp only [upd, if_neg haa, hid]; exact hk)]
      refine ⟨_, rfl, ?_, by simp [ha], rfl, rfl, by simp [upd, haa], ?_⟩
      · have := h.addCore (n := c.next) (free' := c.free) (next' := c.next + 1) (cc := c.coreCount + 1)
          (blk := { (⟨.free, 0, [], 0⟩ : Blk) with id := k, type := .core, buf := B k })
          hk hkr hkc rfl rfl rfl hne
          (fun e => hn (by simp [e])) (fun e => hn (by simp [e])) (fun e => hn (by simp [e]))
          (by simp only [List.cons_append, List.nodup_cons]; exact ⟨hn, h.nodup⟩)
          (by
            intro x hx
            simp only [List.cons_append, List.mem_cons] at hx
            rcases hx with rfl | hx
            · omega
            · have := h.lt x hx; omega)
          (by have := h.count; omega) (by omega) (fun _ h => h)
        have e1 : upd (upd c.heap c.next ⟨.free, 0, [], 0⟩) c.next
            { (⟨.free, 0, [], 0⟩ : Blk) with id := k, type := .core, buf := B k } =
            upd c.heap c.next { (⟨.free, 0, [], 0⟩ : Blk) with id := k, type := .core, buf := B k } := by
          funext x; unfold upd; split <;> rfl
        have e2 : upd c.heap c.next ⟨.free, 0, [], 0⟩ a = c.heap a := by simp [upd, haa]
        have e3 : upd c.heap c.next ⟨.free, 0, [], 0⟩ c.next = (⟨.free, 0, [], 0⟩ : Blk) := by simp [upd]
        simp only [e2, e3, hid, ht, hb]
        rw [e1]
        exact this
      · simp only [upd, if_neg haa, hid, if_neg hki.symm]
    · obtain ⟨p, c', w1, wP, w2, w3, w4, w5, w6, w7, w8, w9, w10, w11, w12, w13⟩ :=
        writePage_spec (cnt := cnt) h.toPInv ha (by simp [ht]) (by rw [hid]; exact hk) (by rw [hid]; exact hb)
      rw [hid] at w2 w4
      have hcore : ∀ x ∈ c.core, c'.heap x = c.heap x := fun x hx => w11 x (by simp [hx])
      refine ⟨c', w1, ?_, by rw [w5]; exact ha, w8, w9, hcore a ha, by rw [w2]; simp only [upd, if_neg hki.symm]⟩
      exact
      { toPInv := wP
        count := by rw [w7, w5, w6]; exact h.count
        small := by rw [w7]; exact h.small
        freeOk := by
          intro x hx
          rw [w6] at hx
          rw [w11 x (by simp [hx])]
          exact h.freeOk x hx
        rpmLe := by rw [w8]; exact h.rpmLe
        coreOk := by
          intro x hx hne
          rw [w5] at hx
          have hxa : x ≠ a := fun e => hne (by rw [e])
          obtain ⟨b1, b2, b3, b4⟩ := h.coreOk x hx hne
          rw [hcore x hx, w8, w2]
          refine ⟨b1, b2, b3, ?_⟩
          simp only [upd, if_neg (hkc x hx hxa)]
          exact b4
        tab := by
          intro j x hx
          rw [w2] at hx
          simp only [upd] at hx
          split at hx
          · rename_i hj
            simp only [Option.some.injEq] at hx
            subst hx
            right
            exact ⟨w3, by rw [w8, hj]; exact hkr⟩
          · rename_i hj
            rcases h.tab j x hx with ⟨h1, h2, h3⟩ | ⟨h1, h2⟩
            · left
              refine ⟨by rw [w5]; exact h1, ?_, ?_⟩
              · intro e
                have := h2 e
                simpa [hj] using this
              · intro hne
                rw [hcore x h1]
                exact h3 hne
            · right; exact ⟨w12 x h1, by rw [w8]; exact h2⟩
        avail := by
          intro j hj hnd hex
          simp only [List.mem_singleton] at hex
          rw [w8] at hj
          by_cases hjk : j = k
          · refine ⟨p, by simp [w2, upd, hjk], Or.inr ⟨w3, by rw [w4, hjk]⟩⟩
          · obtain ⟨x, h1, h2⟩ := h.avail j hj hnd (by simp [hjk, hex])
            refine ⟨x, by simp only [w2, upd, if_neg hjk]; exact h1, ?_⟩
            rcases h2 with h2 | ⟨h2, h3⟩
            · left; rw [w5]; exact h2
            · right
              refine ⟨w12 x h2, ?_⟩
              rcases w13 x h2 with h4 | h4
              · rw [h4, h3]
              · rw [h3] at h4
                unfold Needed at hnd
                omega }
  · rw [getFree_cons hfree]
    unfold copyBlock
    have hnfree : n ∈ c.free := by rw [hfree]; simp
    have hna : n ≠ a := fun e => h.core_not_free ha (e ▸ hnfree)
    have haa : a ≠ n := hna.symm
    have hperm : ((n :: c.core) ++ rest ++ c.pages).Perm (c.core ++ c.free ++ c.pages) := by
      rw [hfree]
      apply List.Perm.append_right
      exact List.perm_middle.symm
    have hnod := hperm.nodup_iff.mpr h.nodup
    simp only
    rw [tabWr_ok (by simp only [hid]; exact hk)]
    refine ⟨_, rfl, ?_, by simp [ha], rfl, rfl, by simp [upd, haa], ?_⟩
    · have hnn : n ∉ c.core ++ rest ++ c.pages := by
        have := hnod
        simp only [List.cons_append, List.nodup_cons] at this
        exact this.1
      have := h.addCore (n := n) (free' := rest) (next' := c.next) (cc := c.coreCount)
          (blk := { (c.heap n) with id := k, type := .core, buf := B k })
          hk hkr hkc rfl rfl rfl hna
          (fun e => hnn (by simp [e])) (fun e => hnn (by simp [e])) (fun e => hnn (by simp [e]))
          hnod (fun x hx => h.lt x (hperm.mem_iff.mp hx))
          (by have := h.count; rw [hfree] at this; simp at this; omega) h.small
          (fun x hx => by rw [hfree]; simp [hx])
      simp only [hid, ht, hb] at this ⊢
      exact this
    · simp only [upd, hid, if_neg hki.symm]

/-- Successive states of a sequential source that yields the blocks `B`. -/
def SrcOk (step : σ → Out (Bytes × σ)) (S : Nat → σ) (B : Nat → Bytes) (n : Nat) : Prop :=
  ∀ k, k < n → step (S k) = .ok (B k, S (k + 1))

/-- Reading on in a sequential source until block `id`. -/
theorem fillSeq_spec {cfg : CacheCfg} {B : Nat → Bytes} {step : σ → Out (Bytes × σ)} {S : Nat → σ}
    {n : Nat} (hsrc : SrcOk step S B n) {cnt id a : Nat} (hid : id < cfg.nblk) (hidn : id < n) :
    ∀ fuel (c : Cache σ), id + 1 - c.rpmId < fuel → c.rpmId ≤ id →
      BInv cfg B false c cnt id (some a) [id] → a ∈ c.core → c.table id = some a → c.src = S c.rpmId →
      ∃ c', fillSeq cfg step fuel c a id cnt = .ok c' ∧ BInv cfg B false c' cnt id none [] ∧
        a ∈ c'.core ∧ (c'.heap a).id = id ∧ c'.src = S c'.rpmId ∧ c'.rpmId = id + 1 := by
  intro fuel
  induction fuel with
  | zero => intro c hf; omega
  | succ fuel ih =>
    intro c hf hle h ha htab hs
    have hk : c.rpmId < cfg.nblk := by omega
    rw [fillSeq, hs, hsrc _ (by omega), Out.bind_ok]
    simp only
    split
    · rename_i hki
      have h1 := h.advance (s := S (c.rpmId + 1)) (b := B c.rpmId) (ex := [id]) ha hk (by simp)
        (Or.inr (by simp [hki]))
      refine ⟨_, rfl, h1.finish ha (Or.inl ⟨rfl, by simp [upd], by simp [upd]⟩) (by simp [upd, hki]) hid
        (by simp [upd, hki]) htab, ha, by simp [upd, hki], rfl, by simp only; omega⟩
    · rename_i hki
      rw [if_neg (by omega)]
      unfold keepPassed
      rw [maxRd]
      have e1 : (upd c.heap a { type := BType.core, id := c.rpmId, buf := B c.rpmId, off := (c.heap a).off } a).id
          = c.rpmId := by simp [upd]
      simp only [e1]
      rw [if_pos hk, Out.bind_ok]
      have hne : ∀ x ∈ c.core, x ≠ a → (c.heap x).id ≠ c.rpmId := by
        intro x hx hxa
        rcases (h.coreOk x hx (fun e => hxa (Option.some.inj e).symm)).1 with ⟨_, _, h1⟩ | ⟨h1, _⟩
        · omega
        · cases h1
      by_cases hmax : cfg.max c.rpmId > cnt
      · rw [if_pos hmax]
        have h1 := h.advance (s := S (c.rpmId + 1)) (b := B c.rpmId) (ex := [id, c.rpmId]) ha hk (by simp)
          (Or.inr (by simp))
        obtain ⟨c', p1, p2, p3, p4, p5, p6, p7⟩ := pushBlock_spec (k := c.rpmId) h1 ha hki hk
          (by simp) (by
            intro x hx hxa
            simp only [upd, if_neg hxa]
            exact hne x hx hxa) (by simp [upd]) (by simp [upd]) (by simp [upd])
        rw [p1, Out.bind_ok]
        simp only at p4 p5 p7
        refine ih c' (by rw [p4]; omega) (by rw [p4]; omega) p2 p3 (by rw [p7]; exact htab) ?_
        rw [p5, p4]
      · rw [if_neg hmax, Out.bind_ok]
        have h1 := h.advance (s := S (c.rpmId + 1)) (b := B c.rpmId) (ex := [id]) ha hk (by simp)
          (Or.inl (by unfold Needed; omega))
        exact ih _ (by simp only; omega) (by simp only; omega) h1 ha htab rfl

/-- What a filler must do, for one block. -/
def FillAt (cfg : CacheCfg) (B : Nat → Bytes) (np : Bool) (R : Nat → σ → Prop) (fill : Filler σ) (id : Nat) : Prop :=
  ∀ (c : Cache σ) (a cnt : Nat), (np = false → c.rpmId ≤ id) → (np = true → c.rpmId = 0) →
    BInv cfg B np c cnt id (some a) [id] → a ∈ c.core → c.table id = some a → R c.rpmId c.src →
    ∃ c', fill c a id cnt = .ok c' ∧ BInv cfg B np c' cnt id none [] ∧ a ∈ c'.core ∧
      (c'.heap a).id = id ∧ R c'.rpmId c'.src ∧ (np = true → c'.rpmId = 0)

/-- What a filler must do. -/
def FillOk (cfg : CacheCfg) (B : Nat → Bytes) (np : Bool) (R : Nat → σ → Prop) (fill : Filler σ) : Prop :=
  ∀ id, id < cfg.nblk → FillAt cfg B np R fill id

theorem rpmFiller_ok {cfg : CacheCfg} {B : Nat → Bytes} {step : σ → Out (Bytes × σ)} {S : Nat → σ}
    (hsrc : SrcOk step S B cfg.nblk) : FillOk cfg B false (fun k s => s = S k) (rpmFiller cfg step) := by
  intro id hid c a cnt hle _ h ha htab hs
  obtain ⟨c', h1, h2, h3, h4, h5, _⟩ := fillSeq_spec (cnt := cnt) (a := a) hsrc hid hid (id + 2) c (by omega)
    (hle rfl) h ha htab hs
  exact ⟨c', h1, h2, h3, h4, h5, fun e => by cases e⟩

theorem fsFiller_ok {cfg : CacheCfg} {B : Nat → Bytes} {step : σ → Nat → Out (Bytes × σ)} {I : σ → Prop}
    (hsrc : ∀ s k, I s → k < cfg.nblk → ∃ s', step s k = .ok (B k, s') ∧ I s') :
    FillOk cfg B true (fun _ => I) (fsFiller step) := by
  intro id hid c a cnt _ h0 h ha htab hI
  unfold fsFiller
  obtain ⟨s', e1, e2⟩ := hsrc c.src id hI hid
  rw [e1, Out.bind_ok]
  refine ⟨_, rfl, ?_, ha, by simp [upd], e2, fun _ => h0 rfl⟩
  have h1 : BInv cfg B true { c with src := s', heap := upd c.heap a { c.heap a with type := .nopage, id := id, buf := B id } }
      cnt id (some a) [id] :=
    { nodup := h.nodup, lt := h.lt
      pageOk := (h.toPInv.setHeap _ (h.core_not_page ha)).pageOk
      offInj := (h.toPInv.setHeap _ (h.core_not_page ha)).offInj
      count := h.count
      small := h.small
      freeOk := by
        intro x hx
        have hx : x ∈ c.free := hx
        have hxa : x ≠ a := fun e => h.core_not_free ha (e ▸ hx)
        simp only [upd, if_neg hxa]
        exact h.freeOk x hx
      rpmLe := h.rpmLe
      coreOk := by
        intro x hx hne
        have hxa : x ≠ a := fun e => hne (by rw [e])
        simp only [upd, if_neg hxa]
        simpa using h.coreOk x hx hne
      tab := by
        intro j x hx
        rcases h.tab j x hx with ⟨b1, b2, b3⟩ | h1
        · left
          refine ⟨b1, b2, fun hne => ?_⟩
          have hxa : x ≠ a := fun e => hne (by rw [e])
          simp only [upd, if_neg hxa]
          exact b3 hne
        · right; exact h1
      avail := by
        intro j hj
        have hj : j < c.rpmId := hj
        have := h0 rfl
        omega }
  exact h1.finish ha (Or.inr ⟨rfl, by simp [upd], h0 rfl⟩) (by simp [upd]) hid (by simp [upd]) htab

/-- The state of the cache between two calls of `blocks_next`. -/
structure CacheOk (cfg : CacheCfg) (B : Nat → Bytes) (np : Bool) (R : Nat → σ → Prop) (c : Cache σ)
    (cnt id : Nat) : Prop where
  inv : BInv cfg B np c cnt id none []
  lastOk : ∀ a, c.last = some a → a ∈ c.core
  srcOk : R c.rpmId c.src
  zero : np = true → c.rpmId = 0

theorem getBlock_spec {cfg : CacheCfg} {B : Nat → Bytes} {np : Bool} {R : Nat → σ → Prop} {fill : Filler σ}
    {c : Cache σ} {cnt id : Nat} (hfill : FillAt cfg B np R fill id) (hmax : 0 < cfg.maxCore)
    (h : CacheOk cfg B np R c cnt id) (hid : id < cfg.nblk) (hm : cnt ≤ cfg.max id)
    (hno : ∀ x, c.table id = some x → x ∉ c.core) :
    ∃ a c', getBlock cfg fill c id cnt = .ok (a, c') ∧ BInv cfg B np c' cnt id none [] ∧ a ∈ c'.core ∧
      (c'.heap a).id = id ∧ R c'.rpmId c'.src ∧ (np = true → c'.rpmId = 0) := by
  unfold getBlock
  have h0 : BInv cfg B np { c with last := none } cnt id none [] := h.inv.setLastCleanup none c.cleanup
  obtain ⟨a, c1, hg, g⟩ := grabBlock_spec h0 hmax
  rw [hg, Out.bind_ok]
  simp only
  have hnd : Needed cfg cnt id id := by unfold Needed; omega
  have hidx : ∀ x ∈ c1.core, a ≠ x → (c1.heap x).id ≠ id := by
    intro x hx hxa he
    have h4 := (g.coreOk x hx (fun e => hxa (Option.some.inj e))).2.2.2
    rw [he] at h4
    have h5 : c.table id = some x := g.old id x h4 hx
    rcases h.inv.tab id x h5 with ⟨h6, _⟩ | ⟨h6, _⟩
    · exact hno x h5 h6
    · exact g.core_not_page hx (g.keep x h6)
  have h1 := g.enter hidx
  unfold loadBlock
  rw [tabRd, if_pos hid, Out.bind_ok, tabWr_ok hid, Out.bind_ok]
  have hfillcase : c1.rpmId ≤ id ∨ np = true → ∃ c', fill { c1 with table := upd c1.table id (some a) } a id cnt = .ok c' ∧
      BInv cfg B np c' cnt id none [] ∧ a ∈ c'.core ∧
      (c'.heap a).id = id ∧ R c'.rpmId c'.src ∧ (np = true → c'.rpmId = 0) := by
    intro hle
    refine hfill _ a cnt ?_ ?_ h1 g.mem (by simp [upd]) ?_
    · intro hnp
      rcases hle with hle | hle
      · exact hle
      · rw [hnp] at hle; cases hle
    · intro hnp; simp only; rw [g.rpm]; exact h.zero hnp
    · simp only; rw [g.rpm, g.source]; exact h.srcOk
  cases ht : c1.table id with
  | none =>
    simp only
    have hle : c1.rpmId ≤ id := by
      apply Nat.le_of_not_lt
      intro hlt
      obtain ⟨x, hx, _⟩ := g.avail id hlt hnd (by simp)
      rw [ht] at hx; cases hx
    obtain ⟨c', f1, f2⟩ := hfillcase (Or.inl hle)
    rw [f1, Out.bind_ok]
    exact ⟨a, c', rfl, f2⟩
  | some p =>
    simp only
    rcases g.tab id p ht with ⟨q1, q2, q3⟩ | ⟨q1, q2⟩
    · exfalso
      by_cases hpa : a = p
      · have := q2 (by rw [hpa]); simp at this
      · exact hidx p q1 hpa (q3 (fun e => hpa (Option.some.inj e)))
    · obtain ⟨t1, t2, t3, t4⟩ := g.pageOk p q1
      obtain ⟨y, hy1, hy2⟩ := g.avail id q2 hnd (by simp)
      rw [ht] at hy1
      simp only [Option.some.injEq] at hy1
      subst hy1
      have hpid : (c1.heap p).id = id := by
        rcases hy2 with hy2 | hy2
        · exact absurd q1 (g.core_not_page hy2)
        · exact hy2.2
      have hnp : np = false := by
        cases np with
        | false => rfl
        | true => rw [g.rpm] at q2; have := h.zero rfl; simp only at q2; omega
      have ha := g.mem
      have hanp := g.core_not_page ha
      rw [if_pos t1]
      unfold readPage
      rw [if_neg (by simp [t1, g.type])]
      simp only [hpid]
      rw [tabWr_ok hid, Out.bind_ok]
      refine ⟨a, _, rfl, ?_, ha, by simp [upd], ?_, fun e => by rw [hnp] at e; cases e⟩
      · have h2 : BInv cfg B np { c1 with
            table := upd (upd c1.table id (some a)) id (some a),
            heap := upd c1.heap a { c1.heap a with type := .core, id := id, buf := c1.pageFile (c1.heap p).off } }
            cnt id (some a) [id] :=
          { nodup := h1.nodup, lt := h1.lt
            pageOk := (g.toPInv.setHeap _ hanp).pageOk
            offInj := (g.toPInv.setHeap _ hanp).offInj
            count := h1.count
            small := h1.small
            freeOk := by
              intro x hx
              have hx : x ∈ c1.free := hx
              have hxa : x ≠ a := fun e => g.core_not_free ha (e ▸ hx)
              simp only [upd, if_neg hxa]
              exact g.freeOk x hx
            rpmLe := h1.rpmLe
            coreOk := by
              intro x hx hne
              have hxa : x ≠ a := fun e => hne (by rw [e])
              have := h1.coreOk x hx hne
              simp only [upd, if_neg hxa] at this ⊢
              refine ⟨this.1, this.2.1, this.2.2.1, ?_⟩
              split
              · rename_i he
                exact absurd he (hidx x hx hxa.symm)
              · have h9 := this.2.2.2
                rename_i he
                rw [if_neg he] at h9
                exact h9
            tab := by
              intro j x hx
              have hx' : upd c1.table id (some a) j = some x := by
                simp only [upd] at hx ⊢
                split at hx <;> simp_all
              rcases h1.tab j x hx' with ⟨b1, b2, b3⟩ | b1
              · left
                refine ⟨b1, b2, fun hne => ?_⟩
                have hxa : x ≠ a := fun e => hne (by rw [e])
                simp only [upd, if_neg hxa]
                exact b3 hne
              · right; exact b1
            avail := by
              intro j hj hn hex
              obtain ⟨x, b1, b2⟩ := h1.avail j hj hn hex
              simp only [List.mem_singleton] at hex
              refine ⟨x, by simp only [upd, if_neg hex] at b1 ⊢; exact b1, ?_⟩
              rcases b2 with b2 | ⟨b2, b3⟩
              · left; exact b2
              · right
                have hxa : x ≠ a := fun e => hanp (e ▸ b2)
                refine ⟨b2, ?_⟩
                simp only [upd, if_neg hxa]
                exact b3 }
        exact h2.finish ha (Or.inl ⟨hnp, by simp [upd], by simp [upd]; exact q2⟩) (by simp [upd]) hid
          (by simp [upd, t4, hpid]) (by simp [upd])
      · simp only; rw [g.rpm, g.source]; exact h.srcOk

theorem lastBlock_spec {cfg : CacheCfg} {B : Nat → Bytes} {np : Bool} {R : Nat → σ → Prop} {fill : Filler σ}
    {c : Cache σ} {cnt id : Nat} (hfill : FillAt cfg B np R fill id) (hmax : 0 < cfg.maxCore)
    (h : CacheOk cfg B np R c cnt id) (hid : id < cfg.nblk) (hm : cnt ≤ cfg.max id) :
    ∃ a c', lastBlock cfg fill c cnt id = .ok (a, c') ∧ BInv cfg B np c' cnt id none [] ∧ a ∈ c'.core ∧
      (c'.heap a).id = id ∧ R c'.rpmId c'.src ∧ (np = true → c'.rpmId = 0) := by
  have hfind : ∃ a c', findBlock cfg fill c cnt id = .ok (a, c') ∧ BInv cfg B np c' cnt id none [] ∧
      a ∈ c'.core ∧ (c'.heap a).id = id ∧ R c'.rpmId c'.src ∧ (np = true → c'.rpmId = 0) := by
    unfold findBlock
    rw [tabRd, if_pos hid, Out.bind_ok]
    cases ht : c.table id with
    | none =>
      simp only
      exact getBlock_spec hfill hmax h hid hm (fun x hx => by rw [ht] at hx; cases hx)
    | some a =>
      simp only
      rcases h.inv.tab id a ht with ⟨q1, _, q3⟩ | ⟨q1, _⟩
      · have h3 := h.inv.coreOk a q1 (by simp)
        have : ¬ (c.heap a).type = .page := by
          rcases h3.1 with ⟨_, t, _⟩ | ⟨_, t, _⟩ <;> rw [t] <;> decide
        rw [if_neg this]
        exact ⟨a, c, rfl, h.inv, q1, q3 (by simp), h.srcOk, h.zero⟩
      · rw [if_pos (h.inv.pageOk a q1).1]
        refine getBlock_spec hfill hmax h hid hm (fun x hx hxc => ?_)
        rw [ht] at hx
        simp only [Option.some.injEq] at hx
        subst hx
        exact h.inv.core_not_page hxc q1
  unfold lastBlock
  cases hl : c.last with
  | none => simp only; exact hfind
  | some a =>
    simp only
    split
    · rename_i he
      exact ⟨a, c, rfl, h.inv, h.lastOk a hl, he.symm, h.srcOk, h.zero⟩
    · exact hfind

/-- `blocks_next` returns the bytes of the block, for any source. -/
theorem blocksNext_spec {cfg : CacheCfg} {B : Nat → Bytes} {np : Bool} {R : Nat → σ → Prop} {fill : Filler σ}
    (hfill : FillOk cfg B np R fill) (hmax : 0 < cfg.maxCore) (hB : ∀ k, k < cfg.nblk → (B k).length = blockSize)
    {c : Cache σ} {off len cnt id : Nat}
    (h : CacheOk cfg B np R c cnt id) (hid : id < cfg.nblk) (hm : cnt ≤ cfg.max id) (hlen : len + blockSize < 2^64) :
    ∃ c', blocksNext cfg fill c off len cnt id =
        .ok (slice (B id) (off % blockSize) (min len (blockSize - off % blockSize)), c') ∧
      CacheOk cfg B np R c' cnt id := by
  obtain ⟨a, c', h1, h2, h3, h4, h5, h6⟩ := lastBlock_spec (hfill id hid) hmax h hid hm
  have hbuf : (c'.heap a).buf = B id := by
    have := (h2.coreOk a h3 (by simp)).2.2.1
    rw [h4] at this; exact this
  have hlt : off % blockSize < blockSize := Nat.mod_lt _ (by decide)
  have hn : (if (off % blockSize + len) % 2 ^ 64 > blockSize then blockSize - off % blockSize else len) =
      min len (blockSize - off % blockSize) := by
    rw [Nat.mod_eq_of_lt (by omega)]
    split <;> omega
  unfold blocksNext
  rw [h1, Out.bind_ok]
  simp only
  rw [hn, hbuf, rdBlk_ok (by rw [hB id hid]; omega), Out.bind_ok]
  refine ⟨_, rfl, ?_, ?_, h5, h6⟩
  · exact h2.setLastCleanup (some a) c'.cleanup
  · intro x hx
    simp only [Option.some.injEq] at hx
    subst hx; exact h3

end Drpm
