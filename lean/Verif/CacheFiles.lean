import Verif.CacheRefine
/-!
# The block cache over a source that can deliver any block at any time, possibly several at once
-/

namespace Drpm

variable {σ : Type}

/-- The invariant: whatever the table leads to is right, or is not needed any more. Several core
    blocks may hold the same block. `hole` is a core block that is being filled with block `id`. -/
structure FInv (cfg : CacheCfg) (B : Nat → Bytes) (c : Cache σ) (cnt id : Nat) (hole : Option Nat) : Prop extends
    PInv cfg B c where
  count : c.coreCount = c.core.length + c.free.length
  small : c.coreCount ≤ cfg.maxCore
  freeOk : ∀ a ∈ c.free, (c.heap a).type = .free
  coreOk : ∀ a ∈ c.core, hole ≠ some a →
    ((c.heap a).type = .core ∨ (c.heap a).type = .nopage) ∧ (c.heap a).id < cfg.nblk ∧ (c.heap a).buf = B (c.heap a).id
  tab : ∀ j a, c.table j = some a →
    (a ∈ c.core ∧ (hole = some a → j = id) ∧ (hole ≠ some a → (c.heap a).id = j)) ∨
    (a ∈ c.pages ∧ ((c.heap a).id = j ∨ cfg.max j < cnt))

theorem FInv.mono {cfg : CacheCfg} {B : Nat → Bytes} {c : Cache σ} {cnt id cnt' id' : Nat}
    (h : FInv cfg B c cnt id none) (hm : cnt ≤ cnt') : FInv cfg B c cnt' id' none :=
  { h with
    tab := by
      intro j a hj
      rcases h.tab j a hj with ⟨h1, _, h3⟩ | ⟨h1, h2⟩
      · exact Or.inl ⟨h1, (fun e => by cases e), h3⟩
      · exact Or.inr ⟨h1, by omega⟩ }

theorem FInv.setMisc {cfg : CacheCfg} {B : Nat → Bytes} {c : Cache σ} {cnt id : Nat} {hole : Option Nat}
    (h : FInv cfg B c cnt id hole) (l : Option Nat) (n r : Nat) (s : σ) :
    FInv cfg B { c with last := l, cleanup := n, rpmId := r, src := s } cnt id hole :=
  { nodup := h.nodup, lt := h.lt, pageOk := h.pageOk, offInj := h.offInj, count := h.count, small := h.small,
    freeOk := h.freeOk, coreOk := h.coreOk, tab := h.tab }

/-- Changing the hole. -/
theorem FInv.setHole {cfg : CacheCfg} {B : Nat → Bytes} {c : Cache σ} {cnt id a : Nat}
    (h : FInv cfg B c cnt id (some a)) (ha : a ∈ c.core) (b : Blk) :
    FInv cfg B { c with heap := upd c.heap a b } cnt id (some a) :=
  { nodup := h.nodup, lt := h.lt
    pageOk := (h.toPInv.setHeap _ (h.core_not_page ha)).pageOk
    offInj := (h.toPInv.setHeap _ (h.core_not_page ha)).offInj
    count := h.count, small := h.small
    freeOk := by
      intro x hx
      have hx : x ∈ c.free := hx
      have hxa : x ≠ a := fun e => h.core_not_free ha (e ▸ hx)
      simp only [upd, if_neg hxa]
      exact h.freeOk x hx
    coreOk := by
      intro x hx hne
      have hxa : x ≠ a := fun e => hne (by rw [e])
      simp only [upd, if_neg hxa]
      exact h.coreOk x hx hne
    tab := by
      intro j x hx
      rcases h.tab j x hx with ⟨b1, b2, b3⟩ | ⟨b1, b2⟩
      · left
        refine ⟨b1, b2, fun hne => ?_⟩
        have hxa : x ≠ a := fun e => hne (by rw [e])
        simp only [upd, if_neg hxa]
        exact b3 hne
      · right
        have hxa : x ≠ a := fun e => h.core_not_page ha (e ▸ b1)
        refine ⟨b1, ?_⟩
        simp only [upd, if_neg hxa]
        exact b2 }

/-- The hole is filled. -/
theorem FInv.finish {cfg : CacheCfg} {B : Nat → Bytes} {c : Cache σ} {cnt id a : Nat}
    (h : FInv cfg B c cnt id (some a))
    (ht : (c.heap a).type = .core ∨ (c.heap a).type = .nopage)
    (hid : (c.heap a).id = id) (hn : id < cfg.nblk) (hb : (c.heap a).buf = B id) : FInv cfg B c cnt id none :=
  { nodup := h.nodup, lt := h.lt, pageOk := h.pageOk, offInj := h.offInj, count := h.count, small := h.small,
    freeOk := h.freeOk
    coreOk := by
      intro x hx _
      by_cases hxa : x = a
      · subst hxa
        exact ⟨ht, by rw [hid]; exact hn, by rw [hid]; exact hb⟩
      · exact h.coreOk x hx (fun e => hxa (Option.some.inj e).symm)
    tab := by
      intro j x hx
      rcases h.tab j x hx with ⟨h1, h2, h3⟩ | h1
      · left
        refine ⟨h1, (fun e => by cases e), fun _ => ?_⟩
        by_cases hxa : x = a
        · subst hxa
          rw [hid, h2 rfl]
        · exact h3 (fun e => hxa (Option.some.inj e).symm)
      · right; exact h1 }

/-- Setting a table entry to a core block that holds the block, or to the hole, or to nothing. -/
theorem FInv.setTab {cfg : CacheCfg} {B : Nat → Bytes} {c : Cache σ} {cnt id : Nat} {hole : Option Nat}
    (h : FInv cfg B c cnt id hole) (k : Nat) (v : Option Nat)
    (hv : ∀ n, v = some n → n ∈ c.core ∧ (hole = some n → k = id) ∧ (hole ≠ some n → (c.heap n).id = k)) :
    FInv cfg B { c with table := upd c.table k v } cnt id hole :=
  { nodup := h.nodup, lt := h.lt, pageOk := h.pageOk, offInj := h.offInj, count := h.count, small := h.small,
    freeOk := h.freeOk, coreOk := h.coreOk
    tab := by
      intro j x hx
      simp only [upd] at hx
      split at hx
      · rename_i hj
        rw [hj]
        exact Or.inl (hv x hx)
      · exact h.tab j x hx }

/-! ## An empty core block -/

/-- The state after an empty core block `a` was obtained. -/
structure FGrab (cfg : CacheCfg) (B : Nat → Bytes) (c0 c : Cache σ) (a cnt id : Nat) : Prop extends
    FInv cfg B c cnt id (some a) where
  mem : a ∈ c.core
  type : (c.heap a).type = .free
  source : c.src = c0.src

theorem getFree_fgrab {cfg : CacheCfg} {B : Nat → Bytes} {c : Cache σ} {a cnt id : Nat} {rest : List Nat}
    (h : FInv cfg B c cnt id none) (hf : c.free = a :: rest) :
    FGrab cfg B c { c with free := rest, core := a :: c.core } a cnt id := by
  have hafree : a ∈ c.free := by rw [hf]; simp
  have hperm : (a :: c.core ++ rest ++ c.pages).Perm (c.core ++ c.free ++ c.pages) := by
    rw [hf]
    apply List.Perm.append_right
    exact List.perm_middle.symm
  have hcore : ∀ x ∈ c.core, x ≠ a := fun x hx e => h.core_not_free hx (e ▸ hafree)
  exact
  { nodup := hperm.nodup_iff.mpr h.nodup
    lt := fun x hx => h.lt x (hperm.mem_iff.mp hx)
    pageOk := h.pageOk
    offInj := h.offInj
    small := h.small
    count := by
      have := h.count
      simp only [hf, List.length_cons] at this ⊢
      omega
    freeOk := fun x hx => h.freeOk x (by rw [hf]; simp [show x ∈ rest from hx])
    coreOk := by
      intro x hx hne
      simp only [List.mem_cons] at hx
      rcases hx with rfl | hx
      · exact absurd rfl hne
      · exact h.coreOk x hx (by simp)
    tab := by
      intro j x hx
      rcases h.tab j x hx with ⟨h1, _, h3⟩ | h1
      · left
        refine ⟨by simp [h1], ?_, fun _ => h3 (by simp)⟩
        intro e
        simp only [Option.some.injEq] at e
        exact absurd e.symm (hcore x h1)
      · right; exact h1
    mem := by simp
    type := h.freeOk a hafree
    source := rfl }

theorem newCore_fgrab {cfg : CacheCfg} {B : Nat → Bytes} {c : Cache σ} {cnt id : Nat}
    (h : FInv cfg B c cnt id none) (hroom : c.coreCount + 1 ≤ cfg.maxCore) :
    FGrab cfg B c (newCore c).2 (newCore c).1 cnt id := by
  have hn := h.not_next
  have hnc : ∀ x ∈ c.core, x ≠ c.next := fun x hx e => hn (by simp [← e, hx])
  have hnp : ∀ x ∈ c.pages, x ≠ c.next := fun x hx e => hn (by simp [← e, hx])
  exact
  { nodup := by
      simp only [newCore, List.cons_append, List.nodup_cons]
      exact ⟨hn, h.nodup⟩
    lt := by
      intro x hx
      simp only [newCore, List.cons_append, List.mem_cons] at hx ⊢
      rcases hx with rfl | hx
      · omega
      · have := h.lt x hx; omega
    pageOk := by
      intro p hp
      have := hnp p hp
      simp only [newCore, upd, if_neg this]
      exact h.pageOk p hp
    offInj := by
      intro p hp q hq
      have h1 := hnp p hp
      have h2 := hnp q hq
      simp only [newCore, upd, if_neg h1, if_neg h2]
      exact h.offInj p hp q hq
    small := hroom
    count := by simp only [newCore, List.length_cons]; have := h.count; omega
    freeOk := by
      intro x hx
      have hx : x ∈ c.free := hx
      have : x ≠ c.next := fun e => hn (by simp [← e, hx])
      simp only [newCore, upd, if_neg this]
      exact h.freeOk x hx
    coreOk := by
      intro x hx hne
      simp only [newCore, List.mem_cons] at hx
      rcases hx with rfl | hx
      · exact absurd rfl hne
      · have := hnc x hx
        simp only [newCore, upd, if_neg this]
        exact h.coreOk x hx (by simp)
    tab := by
      intro j x hx
      rcases h.tab j x hx with ⟨h1, _, h3⟩ | ⟨h1, h2⟩
      · left
        have := hnc x h1
        refine ⟨by simp [newCore, h1], ?_, ?_⟩
        · intro e
          simp only [newCore, Option.some.injEq] at e
          exact absurd e.symm this
        · intro _
          simp only [newCore, upd, if_neg this]
          exact h3 (by simp)
      · right
        have := hnp x h1
        refine ⟨h1, ?_⟩
        simp only [newCore, upd, if_neg this]
        exact h2
    mem := by simp [newCore]
    type := by simp [newCore, upd]
    source := rfl }

theorem cleanScan_finv {cfg : CacheCfg} {B : Nat → Bytes} {c : Cache σ} {cnt id : Nat}
    (h : FInv cfg B c cnt id none) (hfree : c.free = []) :
    ∀ rest seen, c.core = seen ++ rest →
      cleanScan cfg c id cnt seen rest = .ok c ∨
      ∃ a c', cleanScan cfg c id cnt seen rest = .ok c' ∧ FInv cfg B c' cnt id none ∧
        c'.free = [a] ∧ c'.src = c.src := by
  intro rest
  induction rest with
  | nil => intro seen _; left; rfl
  | cons a rest ih =>
    intro seen hc
    have ha : a ∈ c.core := by rw [hc]; simp
    obtain ⟨a1, a2, a3⟩ := h.coreOk a ha (by simp)
    rw [cleanScan, maxRd, if_pos a2, Out.bind_ok]
    split
    · right
      have hperm : (seen ++ rest ++ (a :: c.free) ++ c.pages).Perm (c.core ++ c.free ++ c.pages) := by
        apply List.Perm.append_right
        rw [hc, List.append_assoc, List.append_assoc]
        apply List.Perm.append_left
        exact List.perm_middle
      have hnod : (seen ++ rest ++ (a :: c.free) ++ c.pages).Nodup := hperm.nodup_iff.mpr h.nodup
      have hasr : a ∉ seen ++ rest := by
        intro hm
        have := (List.nodup_append.mp (List.nodup_append.mp hnod).1).2.2
        exact this a hm a (by simp) rfl
      have hsub : ∀ x ∈ seen ++ rest, x ∈ c.core := by
        intro x hx; rw [hc]; simp at hx ⊢; rcases hx with h | h <;> simp [h]
      have hsup : ∀ x ∈ c.core, x ≠ a → x ∈ seen ++ rest := by
        intro x hx hne; rw [hc] at hx; simp at hx ⊢; rcases hx with h | h | h
        · exact Or.inl h
        · exact absurd h hne
        · exact Or.inr h
      refine ⟨a, _, tabWr_ok a2, ?_, by simp [hfree], rfl⟩
      exact
        { nodup := hnod
          lt := fun x hx => h.lt x (hperm.mem_iff.mp hx)
          pageOk := (h.toPInv.setHeap _ (h.core_not_page ha)).pageOk
          offInj := (h.toPInv.setHeap _ (h.core_not_page ha)).offInj
          small := h.small
          count := by
            have := h.count
            rw [hc] at this
            simp only [List.length_append, List.length_cons] at this ⊢
            omega
          freeOk := by
            intro x hx
            simp only [hfree, List.mem_cons, List.not_mem_nil, or_false] at hx
            simp [upd, hx]
          coreOk := by
            intro x hx _
            have hxa : x ≠ a := fun e => hasr (e ▸ hx)
            simp only [upd, if_neg hxa]
            exact h.coreOk x (hsub x hx) (by simp)
          tab := by
            intro j x hx
            simp only [upd] at hx
            split at hx
            · cases hx
            · rename_i hj
              rcases h.tab j x hx with ⟨h1, h2, h3⟩ | ⟨h1, h2⟩
              · left
                have hxa : x ≠ a := fun e => hj (e ▸ (h3 (by simp)).symm)
                refine ⟨hsup x h1 hxa, (fun e => by cases e), fun _ => ?_⟩
                simp only [upd, if_neg hxa]
                exact h3 (by simp)
              · right
                have hxa : x ≠ a := fun e => h.core_not_page ha (e ▸ h1)
                refine ⟨h1, ?_⟩
                simp only [upd, if_neg hxa]
                exact h2 }
    · exact ih (seen ++ [a]) (by rw [hc]; simp)

/-- Writing core block `a` to the temporary file keeps the invariant. -/
theorem writePage_finv {cfg : CacheCfg} {B : Nat → Bytes} {c : Cache σ} {a cnt id : Nat} {hole : Option Nat}
    (h : FInv cfg B c cnt id hole) (ha : a ∈ c.core) (ht : (c.heap a).type ≠ .page) (hid : (c.heap a).id < cfg.nblk)
    (hb : (c.heap a).buf = B (c.heap a).id) :
    ∃ c', writePage cfg c a cnt = .ok c' ∧ FInv cfg B c' cnt id hole ∧ c'.core = c.core ∧ c'.src = c.src ∧
      (∀ x ∈ c.core, c'.heap x = c.heap x) ∧
      (∀ j x, c'.table j = some x → x ∈ c.core → j ≠ (c.heap a).id ∧ c.table j = some x) := by
  obtain ⟨p, c', w1, wP, w2, w3, w4, w5, w6, w7, w8, w9, w10, w11, w12, w13⟩ :=
    writePage_spec (cnt := cnt) h.toPInv ha ht hid hb
  have hcore : ∀ x ∈ c.core, c'.heap x = c.heap x := fun x hx => w11 x (by simp [hx])
  refine ⟨c', w1, ?_, w5, w9, hcore, ?_⟩
  · exact
    { toPInv := wP
      count := by rw [w7, w5, w6]; exact h.count
      small := by rw [w7]; exact h.small
      freeOk := by
        intro x hx
        rw [w6] at hx
        rw [w11 x (by simp [hx])]
        exact h.freeOk x hx
      coreOk := by
        intro x hx hne
        rw [w5] at hx
        rw [hcore x hx]
        exact h.coreOk x hx hne
      tab := by
        intro j x hx
        rw [w2] at hx
        simp only [upd] at hx
        split at hx
        · rename_i hj
          simp only [Option.some.injEq] at hx
          subst hx
          right
          exact ⟨w3, Or.inl (by rw [w4, hj])⟩
        · rename_i hj
          rcases h.tab j x hx with ⟨h1, h2, h3⟩ | ⟨h1, h2⟩
          · left
            exact ⟨by rw [w5]; exact h1, h2, fun hne => by rw [hcore x h1]; exact h3 hne⟩
          · right
            refine ⟨w12 x h1, ?_⟩
            rcases h2 with h2 | h2
            · rcases w13 x h1 with h4 | h4
              · left; rw [h4, h2]
              · right; rw [← h2]; exact h4
            · exact Or.inr h2 }
  · intro j x hx hxc
    rw [w2] at hx
    simp only [upd] at hx
    split at hx
    · simp only [Option.some.injEq] at hx
      subst hx
      rw [← w5] at hxc
      exact absurd w3 (wP.core_not_page hxc)
    · rename_i hj; exact ⟨hj, hx⟩

theorem evict_fgrab {cfg : CacheCfg} {B : Nat → Bytes} {c : Cache σ} {cnt id : Nat}
    (h : FInv cfg B c cnt id none) (hne : c.core ≠ []) :
    ∃ a c', evict cfg c cnt = .ok (a, c') ∧ FGrab cfg B c c' a cnt id := by
  unfold evict
  rw [List.getLast?_eq_some_getLast hne]
  simp only
  generalize ha' : c.core.getLast hne = a
  have hsplit : c.core = c.core.dropLast ++ [a] := by rw [← ha']; exact (List.dropLast_concat_getLast hne).symm
  generalize hl : c.core.dropLast = l at *
  have ha : a ∈ c.core := by rw [hsplit]; simp
  have hperm : (a :: l ++ c.free ++ c.pages).Perm (c.core ++ c.free ++ c.pages) := by
    apply List.Perm.append_right
    apply List.Perm.append_right
    rw [hsplit]
    exact (List.perm_append_singleton a l).symm
  have hmem : ∀ x, x ∈ a :: l ↔ x ∈ c.core := by
    intro x; rw [hsplit]; simp [or_comm]
  obtain ⟨a1, a2, a3⟩ := h.coreOk a ha (by simp)
  have h' : FInv cfg B { c with core := a :: l } cnt id none :=
    { nodup := hperm.nodup_iff.mpr h.nodup
      lt := fun x hx => h.lt x (hperm.mem_iff.mp hx)
      pageOk := h.pageOk, offInj := h.offInj, small := h.small
      count := by
        have := h.count
        rw [hsplit] at this
        simp at this ⊢
        omega
      freeOk := h.freeOk
      coreOk := fun x hx => h.coreOk x ((hmem x).mp hx)
      tab := by
        intro j x hx
        rcases h.tab j x hx with ⟨h1, h2⟩ | h1
        · exact Or.inl ⟨(hmem x).mpr h1, h2⟩
        · exact Or.inr h1 }
  have hsave : ∃ c', saveEvicted cfg { c with core := a :: l } a cnt = .ok c' ∧ FInv cfg B c' cnt id none ∧
      c'.core = a :: l ∧ c'.src = c.src ∧ (∀ x ∈ a :: l, c'.heap x = c.heap x) ∧
      (∀ j x, c'.table j = some x → x ∈ a :: l → j ≠ (c.heap a).id ∧ c.table j = some x) := by
    unfold saveEvicted
    simp only
    split
    · rename_i ht
      exact writePage_finv h' (by simp) (by simp [ht]) a2 a3
    · rw [tabWr_ok a2]
      refine ⟨_, rfl, h'.setTab _ none (fun n hn => by cases hn), rfl, rfl, fun _ _ => rfl, ?_⟩
      intro j x hx _
      simp only [upd] at hx
      split at hx
      · cases hx
      · rename_i hj; exact ⟨hj, hx⟩
  obtain ⟨c', s1, s2, s3, s4, s5, s6⟩ := hsave
  rw [s1, Out.bind_ok]
  refine ⟨a, _, rfl, ?_⟩
  have hac : a ∈ c'.core := by rw [s3]; simp
  have hap := s2.core_not_page hac
  exact
  { nodup := s2.nodup, lt := s2.lt
    pageOk := (s2.toPInv.setHeap _ hap).pageOk
    offInj := (s2.toPInv.setHeap _ hap).offInj
    count := s2.count, small := s2.small
    freeOk := by
      intro x hx
      have hx : x ∈ c'.free := hx
      have hxa : x ≠ a := fun e => s2.core_not_free hac (e ▸ hx)
      simp only [upd, if_neg hxa]
      exact s2.freeOk x hx
    coreOk := by
      intro x hx hxa
      have hxa : x ≠ a := fun e => hxa (by rw [e])
      simp only [upd, if_neg hxa]
      exact s2.coreOk x hx (by simp)
    tab := by
      intro j x hx
      rcases s2.tab j x hx with ⟨h1, _, h3⟩ | ⟨h1, h2⟩
      · left
        have hid := h3 (by simp)
        have hx1 := s6 j x hx (by rw [← s3]; exact h1)
        have hxa : x ≠ a := by
          rintro rfl
          apply hx1.1
          rw [← hid, s5 x (by simp)]
        refine ⟨h1, (fun e => absurd (Option.some.inj e).symm hxa), fun _ => ?_⟩
        simp only [upd, if_neg hxa]
        exact hid
      · right
        have hxa : x ≠ a := fun e => hap (e ▸ h1)
        refine ⟨h1, ?_⟩
        simp only [upd, if_neg hxa]
        exact h2
    mem := hac
    type := by simp [upd]
    source := s4 }

theorem grabBlock_finv {cfg : CacheCfg} {B : Nat → Bytes} {c : Cache σ} {cnt id : Nat}
    (h : FInv cfg B c cnt id none) (hmax : 0 < cfg.maxCore) :
    ∃ a c', grabBlock cfg c id cnt = .ok (a, c') ∧ FGrab cfg B c c' a cnt id := by
  unfold grabBlock
  have hcases : c.free = [] ∨ ∃ a rest, c.free = a :: rest := by cases c.free <;> simp
  rcases hcases with hfree | ⟨a, rest, hfree⟩
  rotate_left
  · rw [getFree_cons hfree]
    exact ⟨_, _, rfl, getFree_fgrab h hfree⟩
  · rw [getFree_nil hfree]
    simp only
    split
    · rename_i hr
      have h' := h.setMisc c.last ((c.cleanup + 1) % 2^64) c.rpmId c.src
      have := newCore_fgrab h' hr.1
      exact ⟨_, _, rfl, { this with source := this.source }⟩
    · generalize hk : (if c.coreCount < cfg.maxCore then (c.cleanup + 1) % 2 ^ 64 else c.cleanup) = k
      have h' := h.setMisc c.last k c.rpmId c.src
      rcases cleanScan_finv h' hfree c.core [] rfl with hc | ⟨a, c', hc, hi, hcf, hcs⟩
      · have hc : cleanScan cfg { c with cleanup := k } id cnt [] c.core = .ok { c with cleanup := k } := hc
        rw [hc, Out.bind_ok, getFree_nil (by exact hfree)]
        simp only
        split
        · rename_i hr
          have := newCore_fgrab h' hr
          exact ⟨_, _, rfl, { this with source := this.source }⟩
        · rename_i hge
          have hne : c.core ≠ [] := by
            intro e
            have := h.count
            rw [e, hfree] at this
            simp at this hge
            omega
          obtain ⟨a, c', he, hg⟩ := evict_fgrab h' hne
          exact ⟨a, c', he, { hg with source := hg.source }⟩
      · have hc : cleanScan cfg { c with cleanup := k } id cnt [] c.core = .ok c' := hc
        rw [hc, Out.bind_ok, getFree_cons hcf]
        have := getFree_fgrab hi hcf
        exact ⟨_, _, rfl, { this with source := this.source.trans hcs }⟩

/-- `push_block` of the hole, which holds a block other than the one wanted. -/
theorem pushBlock_finv {cfg : CacheCfg} {B : Nat → Bytes} {c : Cache σ} {cnt id a : Nat}
    (h : FInv cfg B c cnt id (some a)) (ha : a ∈ c.core) (ht : (c.heap a).type = .core)
    (hk : (c.heap a).id < cfg.nblk) (hb : (c.heap a).buf = B (c.heap a).id) :
    ∃ c', pushBlock cfg c a cnt = .ok c' ∧ FInv cfg B c' cnt id (some a) ∧ a ∈ c'.core ∧ c'.src = c.src ∧
      c'.heap a = c.heap a := by
  have hcases : c.free = [] ∨ ∃ a rest, c.free = a :: rest := by cases c.free <;> simp
  -- a core block that was not in use
  have key : ∀ (n : Nat) (free' : List Nat) (next' cc : Nat) (blk : Blk), n ≠ a → n ∉ c.core → n ∉ c.pages →
      (∀ x ∈ free', x ∈ c.free ∧ x ≠ n) → ((n :: c.core) ++ free' ++ c.pages).Nodup →
      (∀ x ∈ (n :: c.core) ++ free' ++ c.pages, x < next') → cc = c.core.length + 1 + free'.length → cc ≤ cfg.maxCore →
      blk.type = .core → blk.id = (c.heap a).id → blk.buf = B (c.heap a).id →
      FInv cfg B { c with heap := upd c.heap n blk, next := next', free := free', core := n :: c.core, coreCount := cc,
                          table := upd c.table (c.heap a).id (some n) } cnt id (some a) := by
    intro n free' next' cc blk hna hnc hnp hfr hnod hlt hcc hroom b1 b2 b3
    exact
    { nodup := hnod, lt := hlt
      pageOk := (h.toPInv.setHeap blk hnp).pageOk
      offInj := (h.toPInv.setHeap blk hnp).offInj
      count := by simp only [List.length_cons]; exact hcc
      small := hroom
      freeOk := by
        intro x hx
        obtain ⟨f1, f2⟩ := hfr x hx
        simp only [upd, if_neg f2]
        exact h.freeOk x f1
      coreOk := by
        intro x hx hne
        simp only [List.mem_cons] at hx
        by_cases hxn : x = n
        · subst hxn
          simp only [upd, if_true, b1, b2, b3]
          exact ⟨Or.inl trivial, hk, trivial⟩
        · have hx : x ∈ c.core := by rcases hx with h | h; exact absurd h hxn; exact h
          simp only [upd, if_neg hxn]
          exact h.coreOk x hx hne
      tab := by
        intro j x hx
        simp only [upd] at hx
        split at hx
        · rename_i hj
          simp only [Option.some.injEq] at hx
          subst hx
          left
          refine ⟨by simp, ?_, ?_⟩
          · intro e; exact absurd (Option.some.inj e).symm hna
          · intro _; simp [upd, b2, hj]
        · rcases h.tab j x hx with ⟨h1, h2, h3⟩ | ⟨h1, h2⟩
          · left
            have hxn : x ≠ n := fun e => hnc (e ▸ h1)
            refine ⟨by simp [h1], h2, fun hne => ?_⟩
            simp only [upd, if_neg hxn]
            exact h3 hne
          · right
            have hxn : x ≠ n := fun e => hnp (e ▸ h1)
            refine ⟨h1, ?_⟩
            simp only [upd, if_neg hxn]
            exact h2 }
  unfold pushBlock
  rcases hcases with hfree | ⟨n, rest, hfree⟩
  · rw [getFree_nil hfree]
    simp only
    split
    · unfold copyBlock
      simp only [newCore]
      have hn := h.not_next
      have hne : c.next ≠ a := fun e => hn (by simp [e, ha])
      have haa : a ≠ c.next := hne.symm
      have e2 : upd c.heap c.next ⟨.free, 0, [], 0⟩ a = c.heap a := by simp [upd, haa]
      have e3 : upd c.heap c.next ⟨.free, 0, [], 0⟩ c.next = (⟨.free, 0, [], 0⟩ : Blk) := by simp [upd]
      rw [tabWr_ok (by rw [e2]; exact hk)]
      refine ⟨_, rfl, ?_, by simp [ha], rfl, by simp [upd, haa]⟩
      have := key c.next c.free (c.next + 1) (c.coreCount + 1)
        { (⟨.free, 0, [], 0⟩ : Blk) with id := (c.heap a).id, type := .core, buf := B (c.heap a).id } hne
        (fun e => hn (by simp [e])) (fun e => hn (by simp [e]))
        (fun x hx => ⟨hx, fun e => hn (by simp [← e, hx])⟩)
        (by simp only [List.cons_append, List.nodup_cons]; exact ⟨hn, h.nodup⟩)
        (by
          intro x hx
          simp only [List.cons_append, List.mem_cons] at hx
          rcases hx with rfl | hx
          · omega
          · have := h.lt x hx; omega)
        (by have := h.count; omega) (by omega) rfl rfl rfl
      have e1 : upd (upd c.heap c.next ⟨.free, 0, [], 0⟩) c.next
          { (⟨.free, 0, [], 0⟩ : Blk) with id := (c.heap a).id, type := .core, buf := B (c.heap a).id } =
          upd c.heap c.next { (⟨.free, 0, [], 0⟩ : Blk) with id := (c.heap a).id, type := .core, buf := B (c.heap a).id } := by
        funext x; unfold upd; split <;> rfl
      simp only [e2, e3, ht, hb]
      rw [e1]
      exact this
    · obtain ⟨c', w1, w2, w3, w4, w5, _⟩ := writePage_finv (cnt := cnt) h ha (by simp [ht]) hk hb
      exact ⟨c', w1, w2, by rw [w3]; exact ha, w4, w5 a ha⟩
  · rw [getFree_cons hfree]
    unfold copyBlock
    have hnfree : n ∈ c.free := by rw [hfree]; simp
    have hna : n ≠ a := fun e => h.core_not_free ha (e ▸ hnfree)
    have haa : a ≠ n := hna.symm
    have hperm : ((n :: c.core) ++ rest ++ c.pages).Perm (c.core ++ c.free ++ c.pages) := by
      rw [hfree]
      apply List.Perm.append_right
      exact List.perm_middle.symm
    have hnod := hperm.nodup_iff.mpr h.nodup
    simp only
    rw [tabWr_ok hk]
    refine ⟨_, rfl, ?_, by simp [ha], rfl, by simp [upd, haa]⟩
    have hnn : n ∉ c.core ++ rest ++ c.pages := by
      have := hnod
      simp only [List.cons_append, List.nodup_cons] at this
      exact this.1
    have := key n rest c.next c.coreCount
        { (c.heap n) with id := (c.heap a).id, type := .core, buf := B (c.heap a).id } hna
        (fun e => hnn (by simp [e])) (fun e => hnn (by simp [e]))
        (fun x hx => ⟨by rw [hfree]; simp [hx], fun e => hnn (by simp [← e, hx])⟩)
        hnod (fun x hx => h.lt x (hperm.mem_iff.mp hx))
        (by have := h.count; rw [hfree] at this; simp at this; omega) h.small rfl rfl rfl
    simp only [ht, hb] at this ⊢
    exact this

/-! ## `get_block` and `blocks_next` -/

/-- What a filler must do. -/
def FillsAny (cfg : CacheCfg) (B : Nat → Bytes) (I : σ → Prop) (fill : Filler σ) : Prop :=
  ∀ (c : Cache σ) (a id cnt : Nat), id < cfg.nblk → FInv cfg B c cnt id (some a) → a ∈ c.core → I c.src →
    ∃ c', fill c a id cnt = .ok c' ∧ FInv cfg B c' cnt id (some a) ∧ a ∈ c'.core ∧
      ((c'.heap a).type = .core ∨ (c'.heap a).type = .nopage) ∧ (c'.heap a).id = id ∧ (c'.heap a).buf = B id ∧ I c'.src

/-- The state of the cache between two calls of `blocks_next`. -/
structure CacheAny (cfg : CacheCfg) (B : Nat → Bytes) (I : σ → Prop) (c : Cache σ) (cnt id : Nat) : Prop where
  inv : FInv cfg B c cnt id none
  lastOk : ∀ a, c.last = some a → a ∈ c.core
  srcOk : I c.src

theorem getBlock_finv {cfg : CacheCfg} {B : Nat → Bytes} {I : σ → Prop} {fill : Filler σ}
    (hfill : FillsAny cfg B I fill) (hmax : 0 < cfg.maxCore) {c : Cache σ} {cnt id : Nat}
    (h : CacheAny cfg B I c cnt id) (hid : id < cfg.nblk) (hm : cnt ≤ cfg.max id) :
    ∃ a c', getBlock cfg fill c id cnt = .ok (a, c') ∧ FInv cfg B c' cnt id none ∧ a ∈ c'.core ∧
      (c'.heap a).id = id ∧ I c'.src := by
  unfold getBlock
  have h0 : FInv cfg B { c with last := none } cnt id none := h.inv.setMisc none c.cleanup c.rpmId c.src
  obtain ⟨a, c1, hg, g⟩ := grabBlock_finv h0 hmax
  rw [hg, Out.bind_ok]
  simp only
  have h1 := g.toFInv.setTab id (some a) (fun n hn => by
    cases hn
    exact ⟨g.mem, (fun _ => rfl), fun e => absurd rfl e⟩)
  unfold loadBlock
  rw [tabRd, if_pos hid, Out.bind_ok, tabWr_ok hid, Out.bind_ok]
  have hfillcase : ∃ c', fill { c1 with table := upd c1.table id (some a) } a id cnt = .ok c' ∧
      FInv cfg B c' cnt id none ∧ a ∈ c'.core ∧ (c'.heap a).id = id ∧ I c'.src := by
    obtain ⟨c', f1, f2, f3, f4, f5, f6, f7⟩ := hfill _ a id cnt hid h1 g.mem (by
      simp only; rw [g.source]; exact h.srcOk)
    exact ⟨c', f1, f2.finish f4 f5 hid f6, f3, f5, f7⟩
  cases ht : c1.table id with
  | none =>
    obtain ⟨c', f1, f2⟩ := hfillcase
    simp only [f1, Out.bind_ok]
    exact ⟨a, c', rfl, f2⟩
  | some p =>
    simp only
    by_cases hpt : (c1.heap p).type = .page
    rotate_left
    · rw [if_neg hpt]
      obtain ⟨c', f1, f2⟩ := hfillcase
      rw [f1, Out.bind_ok]
      exact ⟨a, c', rfl, f2⟩
    · rw [if_pos hpt]
      have hap : p ≠ a := fun e => by rw [e, g.type] at hpt; cases hpt
      rcases g.tab id p ht with ⟨q1, q2, q3⟩ | ⟨q1, q2⟩
      · exfalso
        rcases (g.coreOk p q1 (fun e => hap (Option.some.inj e).symm)).1 with e | e <;> rw [e] at hpt <;> cases hpt
      · have hpid : (c1.heap p).id = id := by omega
        obtain ⟨t1, t2, t3, t4⟩ := g.pageOk p q1
        unfold readPage
        simp only
        rw [if_neg (by simp [t1, g.type])]
        simp only [hpid]
        rw [tabWr_ok hid, Out.bind_ok]
        refine ⟨a, _, rfl, ?_, g.mem, by simp [upd], by simp only; rw [g.source]; exact h.srcOk⟩
        have h2 := h1.setHole g.mem { c1.heap a with type := .core, id := id, buf := c1.pageFile (c1.heap p).off }
        have h3 := h2.setTab id (some a) (fun n hn => by
          cases hn
          exact ⟨g.mem, (fun _ => rfl), fun e => absurd rfl e⟩)
        exact h3.finish (by simp [upd]) (by simp [upd]) hid (by simp [upd, t4, hpid])

theorem lastBlock_finv {cfg : CacheCfg} {B : Nat → Bytes} {I : σ → Prop} {fill : Filler σ}
    (hfill : FillsAny cfg B I fill) (hmax : 0 < cfg.maxCore) {c : Cache σ} {cnt id : Nat}
    (h : CacheAny cfg B I c cnt id) (hid : id < cfg.nblk) (hm : cnt ≤ cfg.max id) :
    ∃ a c', lastBlock cfg fill c cnt id = .ok (a, c') ∧ FInv cfg B c' cnt id none ∧ a ∈ c'.core ∧
      (c'.heap a).id = id ∧ I c'.src := by
  have hfind : ∃ a c', findBlock cfg fill c cnt id = .ok (a, c') ∧ FInv cfg B c' cnt id none ∧
      a ∈ c'.core ∧ (c'.heap a).id = id ∧ I c'.src := by
    unfold findBlock
    rw [tabRd, if_pos hid, Out.bind_ok]
    cases ht : c.table id with
    | none => exact getBlock_finv hfill hmax h hid hm
    | some a =>
      simp only
      split
      · exact getBlock_finv hfill hmax h hid hm
      · rename_i hnp
        rcases h.inv.tab id a ht with ⟨q1, _, q3⟩ | ⟨q1, _⟩
        · exact ⟨a, c, rfl, h.inv, q1, q3 (by simp), h.srcOk⟩
        · exact absurd (h.inv.pageOk a q1).1 hnp
  unfold lastBlock
  cases hl : c.last with
  | none => simp only; exact hfind
  | some a =>
    simp only
    split
    · rename_i he
      exact ⟨a, c, rfl, h.inv, h.lastOk a hl, he.symm, h.srcOk⟩
    · exact hfind

theorem serves_any {cfg : CacheCfg} {B : Nat → Bytes} {I : σ → Prop} {fill : Filler σ}
    (hfill : FillsAny cfg B I fill) (hmax : 0 < cfg.maxCore) (hB : ∀ k, k < cfg.nblk → (B k).length = blockSize) :
    Serves cfg B fill (CacheAny cfg B I) :=
  { step := by
      intro c off len cnt id h hid hm hlen
      obtain ⟨a, c', h1, h2, h3, h4, h5⟩ := lastBlock_finv hfill hmax h hid hm
      have hbuf : (c'.heap a).buf = B id := by
        have := (h2.coreOk a h3 (by simp)).2.2
        rw [h4] at this; exact this
      have hlt : off % blockSize < blockSize := Nat.mod_lt _ (by decide)
      have hn : (if (off % blockSize + len) % 2 ^ 64 > blockSize then blockSize - off % blockSize else len) =
          min len (blockSize - off % blockSize) := by
        rw [Nat.mod_eq_of_lt (by omega)]
        split <;> omega
      unfold blocksNext
      rw [h1, Out.bind_ok]
      simp only
      rw [hn, hbuf, rdBlk_ok (by rw [hB id hid]; omega), Out.bind_ok]
      refine ⟨_, rfl, h2.setMisc (some a) c'.cleanup c'.rpmId c'.src, ?_, h5⟩
      intro x hx
      simp only [Option.some.injEq] at hx
      subst hx; exact h3
    next := fun c cnt id cnt' id' h hl => ⟨h.inv.mono (by omega), h.lastOk, h.srcOk⟩ }

theorem emptyCache_any {cfg : CacheCfg} {B : Nat → Bytes} {I : σ → Prop} {src : σ} {cleanup cnt id : Nat} (hs : I src) :
    CacheAny cfg B I (emptyCache src cleanup) cnt id :=
  { inv :=
    { nodup := by simp [emptyCache]
      lt := by simp [emptyCache]
      pageOk := by simp [emptyCache]
      offInj := by simp [emptyCache]
      count := rfl
      small := Nat.zero_le _
      freeOk := by simp [emptyCache]
      coreOk := by simp [emptyCache]
      tab := by simp [emptyCache] }
    lastOk := by simp [emptyCache]
    srcOk := hs }

end Drpm
