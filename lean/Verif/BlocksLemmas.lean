import Verif.Blocks
/-!
# Invariants of the block cache
-/

namespace Drpm

variable {σ : Type}

/-- Block `j` may still be asked for, if copy `cnt` has now reached block `id`. -/
def Needed (cfg : CacheCfg) (cnt id j : Nat) : Prop := cfg.max j > cnt ∨ (cfg.max j = cnt ∧ id ≤ j)

/-- The structural part: the lists are disjoint and page blocks hold what they say. -/
structure PInv (cfg : CacheCfg) (B : Nat → Bytes) (c : Cache σ) : Prop where
  nodup : (c.core ++ c.free ++ c.pages).Nodup
  lt : ∀ a ∈ c.core ++ c.free ++ c.pages, a < c.next
  pageOk : ∀ p ∈ c.pages, (c.heap p).type = .page ∧ (c.heap p).id < cfg.nblk ∧
    (c.heap p).off < c.pageCount ∧ c.pageFile (c.heap p).off = B (c.heap p).id
  offInj : ∀ p ∈ c.pages, ∀ q ∈ c.pages, (c.heap p).off = (c.heap q).off → p = q

theorem PInv.core_not_page {cfg : CacheCfg} {B : Nat → Bytes} {c : Cache σ} (h : PInv cfg B c) {a : Nat}
    (ha : a ∈ c.core) : a ∉ c.pages := by
  have := (List.nodup_append.mp h.nodup).2.2
  intro hp
  exact this a (by simp [ha]) a hp rfl

theorem PInv.core_not_free {cfg : CacheCfg} {B : Nat → Bytes} {c : Cache σ} (h : PInv cfg B c) {a : Nat}
    (ha : a ∈ c.core) : a ∉ c.free := by
  have := (List.nodup_append.mp (List.nodup_append.mp h.nodup).1).2.2
  intro hp
  exact this a ha a hp rfl

theorem PInv.free_not_page {cfg : CacheCfg} {B : Nat → Bytes} {c : Cache σ} (h : PInv cfg B c) {a : Nat}
    (ha : a ∈ c.free) : a ∉ c.pages := by
  have := (List.nodup_append.mp h.nodup).2.2
  intro hp
  exact this a (by simp [ha]) a hp rfl

theorem PInv.not_next {cfg : CacheCfg} {B : Nat → Bytes} {c : Cache σ} (h : PInv cfg B c) :
    c.next ∉ c.core ++ c.free ++ c.pages := fun hm => Nat.lt_irrefl _ (h.lt _ hm)

/-- Changing a block that is not a page block. -/
theorem PInv.setHeap {cfg : CacheCfg} {B : Nat → Bytes} {c : Cache σ} (h : PInv cfg B c) {a : Nat} (b : Blk)
    (ha : a ∉ c.pages) : PInv cfg B { c with heap := upd c.heap a b } := by
  refine ⟨h.nodup, h.lt, ?_, ?_⟩
  · intro p hp
    have : p ≠ a := fun e => ha (e ▸ hp)
    simp only [upd, if_neg this]
    exact h.pageOk p hp
  · intro p hp q hq
    have h1 : p ≠ a := fun e => ha (e ▸ hp)
    have h2 : q ≠ a := fun e => ha (e ▸ hq)
    simp only [upd, if_neg h1, if_neg h2]
    exact h.offInj p hp q hq

/-- The invariant. `np`: blocks are never paged. `hole` is a core block that is being filled; `ex`
    are the block numbers for which the table need not be right, among them all whose entry is the
    hole. -/
structure BInv (cfg : CacheCfg) (B : Nat → Bytes) (np : Bool) (c : Cache σ) (cnt id : Nat)
    (hole : Option Nat) (ex : List Nat) : Prop extends PInv cfg B c where
  count : c.coreCount = c.core.length + c.free.length
  small : c.coreCount ≤ cfg.maxCore
  freeOk : ∀ a ∈ c.free, (c.heap a).type = .free
  coreOk : ∀ a ∈ c.core, hole ≠ some a →
    ((np = false ∧ (c.heap a).type = .core ∧ (c.heap a).id < c.rpmId) ∨
     (np = true ∧ (c.heap a).type = .nopage ∧ c.rpmId = 0)) ∧
    (c.heap a).id < cfg.nblk ∧ (c.heap a).buf = B (c.heap a).id ∧ c.table (c.heap a).id = some a
  tab : ∀ j a, c.table j = some a →
    (a ∈ c.core ∧ (hole = some a → j ∈ ex) ∧ (hole ≠ some a → (c.heap a).id = j)) ∨
    (a ∈ c.pages ∧ j < c.rpmId)
  avail : ∀ j, j < c.rpmId → Needed cfg cnt id j → j ∉ ex →
    ∃ a, c.table j = some a ∧ (a ∈ c.core ∨ (a ∈ c.pages ∧ (c.heap a).id = j))
  rpmLe : c.rpmId ≤ cfg.nblk

theorem BInv.mono {cfg : CacheCfg} {B : Nat → Bytes} {c : Cache σ} {cnt id cnt' id' : Nat}
    {np : Bool} {hole : Option Nat} {ex : List Nat} (h : BInv cfg B np c cnt id hole ex)
    (hm : ∀ j, Needed cfg cnt' id' j → Needed cfg cnt id j) : BInv cfg B np c cnt' id' hole ex :=
  { h with avail := fun j hj hn => h.avail j hj (hm j hn) }

theorem findPage_some {c : Cache σ} {id p : Nat} (h : findPage c id = some p) :
    p ∈ c.pages ∧ (c.heap p).id = id := by
  have h1 := List.mem_of_find?_eq_some h
  have h2 := List.find?_some h
  exact ⟨h1, by simpa using h2⟩

theorem findOldPage_spec {cfg : CacheCfg} {B : Nat → Bytes} {c : Cache σ} {cnt : Nat} (hp : PInv cfg B c) :
    ∀ l, (∀ p ∈ l, p ∈ c.pages) →
      findOldPage cfg c cnt l = .ok none ∨
      ∃ p, findOldPage cfg c cnt l = .ok (some p) ∧ p ∈ c.pages ∧ cfg.max (c.heap p).id < cnt := by
  intro l
  induction l with
  | nil => intro _; left; rfl
  | cons p l ih =>
    intro hl
    have h1 := hl p (by simp)
    obtain ⟨_, h2, _, _⟩ := hp.pageOk p h1
    rw [findOldPage, maxRd, if_pos h2, Out.bind_ok]
    by_cases h : cfg.max (c.heap p).id < cnt
    · right; exact ⟨p, by rw [if_pos h], h1, h⟩
    · rw [if_neg h]; exact ih (fun q hq => hl q (by simp [hq]))

theorem tabWr_ok {cfg : CacheCfg} {c : Cache σ} {j : Nat} {v : Option Nat} (h : j < cfg.nblk) :
    tabWr cfg c j v = .ok { c with table := upd c.table j v } := by
  rw [tabWr, if_pos h]

/-- What `write_page_block` does. -/
theorem writePage_spec {cfg : CacheCfg} {B : Nat → Bytes} {c : Cache σ} {a cnt : Nat} (hp : PInv cfg B c)
    (ha : a ∈ c.core) (ht : (c.heap a).type ≠ .page) (hid : (c.heap a).id < cfg.nblk)
    (hb : (c.heap a).buf = B (c.heap a).id) :
    ∃ p c', writePage cfg c a cnt = .ok c' ∧ PInv cfg B c' ∧
      c'.table = upd c.table (c.heap a).id (some p) ∧ p ∈ c'.pages ∧ (c'.heap p).id = (c.heap a).id ∧
      c'.core = c.core ∧ c'.free = c.free ∧ c'.coreCount = c.coreCount ∧ c'.rpmId = c.rpmId ∧
      c'.src = c.src ∧ c'.last = c.last ∧ (∀ x ∈ c.core ++ c.free, c'.heap x = c.heap x) ∧
      (∀ q ∈ c.pages, q ∈ c'.pages) ∧
      (∀ q ∈ c.pages, (c'.heap q).id = (c.heap q).id ∨ cfg.max (c.heap q).id < cnt) := by
  unfold writePage
  rw [if_neg ht]
  split
  · rename_i p hf
    obtain ⟨h1, h2⟩ := findPage_some hf
    refine ⟨p, { c with table := upd c.table (c.heap a).id (some p) }, by rw [tabWr, if_pos hid],
      ⟨hp.nodup, hp.lt, hp.pageOk, hp.offInj⟩, rfl, h1, h2, rfl, rfl, rfl, rfl, rfl, rfl, fun _ _ => rfl,
      fun _ h => h, fun _ _ => Or.inl rfl⟩
  · rcases findOldPage_spec (cnt := cnt) hp c.pages (fun _ h => h) with h | ⟨p, h, hpm, hmax⟩
    · rw [h, Out.bind_ok]
      simp only [takePage]
      have hn := hp.not_next
      have hnp : c.next ∉ c.pages := fun h => hn (by simp [h])
      have hna : c.next ≠ a := fun h => hn (by simp [h, ha])
      refine ⟨c.next, _, tabWr_ok hid, ⟨?_, ?_, ?_, ?_⟩, rfl, ?_, ?_, rfl, rfl, rfl, rfl, rfl, rfl,
        ?_, ?_, ?_⟩
      · simp only
        rw [List.Perm.nodup_iff List.perm_middle, List.nodup_cons]
        exact ⟨hn, hp.nodup⟩
      · intro x hx
        simp only [List.mem_append, List.mem_cons] at hx ⊢
        rcases hx with hx | rfl | hx
        · have := hp.lt x (by simp at hx ⊢; rcases hx with h | h <;> simp [h]); omega
        · omega
        · have := hp.lt x (by simp [hx]); omega
      · intro q hq
        simp only [List.mem_cons] at hq
        rcases hq with rfl | hq
        · simp [upd, hid, hb]
        · have hqn : q ≠ c.next := fun e => hnp (e ▸ hq)
          obtain ⟨a1, a2, a3, a4⟩ := hp.pageOk q hq
          simp only [upd, if_neg hqn, if_true]
          refine ⟨a1, a2, by omega, ?_⟩
          rw [if_neg (by omega)]; exact a4
      · intro x hx y hy
        simp only [List.mem_cons] at hx hy
        rcases hx with rfl | hx <;> rcases hy with rfl | hy
        · intro _; rfl
        · have hyn : y ≠ c.next := fun e => hnp (e ▸ hy)
          obtain ⟨_, _, a3, _⟩ := hp.pageOk y hy
          simp only [upd, if_neg hyn, if_true]; omega
        · have hxn : x ≠ c.next := fun e => hnp (e ▸ hx)
          obtain ⟨_, _, a3, _⟩ := hp.pageOk x hx
          simp only [upd, if_neg hxn, if_true]; omega
        · have hyn : y ≠ c.next := fun e => hnp (e ▸ hy)
          have hxn : x ≠ c.next := fun e => hnp (e ▸ hx)
          simp only [upd, if_neg hyn, if_neg hxn]
          exact hp.offInj x hx y hy
      · simp
      · simp [upd]
      · intro x hx
        have : x ≠ c.next := fun e => hn (by rw [← e]; simp at hx ⊢; rcases hx with h | h <;> simp [h])
        simp [upd, this]
      · intro q hq; simp [hq]
      · intro q hq
        have hqn : q ≠ c.next := fun e => hnp (e ▸ hq)
        left; simp [upd, hqn]
    · rw [h, Out.bind_ok]
      simp only [takePage]
      obtain ⟨p1, p2, p3, p4⟩ := hp.pageOk p hpm
      refine ⟨p, _, tabWr_ok hid, ⟨hp.nodup, hp.lt, ?_, ?_⟩, rfl, hpm, ?_, rfl, rfl, rfl, rfl,
        rfl, rfl, ?_, fun _ h => h, ?_⟩
      · intro q hq
        by_cases hqp : q = p
        · subst hqp; simp [upd, hid, hb, p1, p3]
        · obtain ⟨a1, a2, a3, a4⟩ := hp.pageOk q hq
          have hne : (c.heap q).off ≠ (c.heap p).off := fun e => hqp (hp.offInj q hq p hpm e)
          simp only [upd, if_neg hqp]
          exact ⟨a1, a2, a3, by rw [if_neg hne]; exact a4⟩
      · intro x hx y hy hxy
        apply hp.offInj x hx y hy
        have : ∀ z, (upd c.heap p { c.heap p with id := (c.heap a).id } z).off = (c.heap z).off := by
          intro z; unfold upd; split <;> simp_all
        simpa [this] using hxy
      · simp [upd]
      · intro x hx
        have : x ≠ p := by
          rintro rfl
          simp only [List.mem_append] at hx
          rcases hx with h | h
          · exact hp.core_not_page h hpm
          · exact hp.free_not_page h hpm
        simp [upd, this]
      · intro q hq
        by_cases hqp : q = p
        · subst hqp; right; exact hmax
        · left; simp [upd, hqp]

/-! ## Getting an empty core block -/

/-- The state after an empty core block `a` was obtained. -/
structure Grabbed (cfg : CacheCfg) (B : Nat → Bytes) (np : Bool) (c0 c : Cache σ) (a cnt id : Nat) : Prop extends
    BInv cfg B np c cnt id (some a) [] where
  mem : a ∈ c.core
  type : (c.heap a).type = .free
  old : ∀ j x, c.table j = some x → x ∈ c.core → c0.table j = some x
  keep : ∀ q ∈ c0.pages, q ∈ c.pages
  rpm : c.rpmId = c0.rpmId
  source : c.src = c0.src

theorem getFree_grabbed {cfg : CacheCfg} {B : Nat → Bytes} {np : Bool} {c : Cache σ} {a cnt id : Nat} {rest : List Nat}
    (h : BInv cfg B np c cnt id none []) (hf : c.free = a :: rest) :
    Grabbed cfg B np c { c with free := rest, core := a :: c.core } a cnt id := by
  have hafree : a ∈ c.free := by rw [hf]; simp
  have hperm : (a :: c.core ++ rest ++ c.pages).Perm (c.core ++ c.free ++ c.pages) := by
    rw [hf]
    apply List.Perm.append_right
    exact List.perm_middle.symm
  have hcore : ∀ x ∈ c.core, x ≠ a := fun x hx e => h.core_not_free hx (e ▸ hafree)
  exact
  { nodup := hperm.nodup_iff.mpr h.nodup
    lt := fun x hx => h.lt x (hperm.mem_iff.mp hx)
    pageOk := h.pageOk
    offInj := h.offInj
    small := h.small
    count := by
      have := h.count
      simp only [hf, List.length_cons] at this ⊢
      omega
    freeOk := fun x hx => h.freeOk x (by rw [hf]; simp [show x ∈ rest from hx])
    coreOk := by
      intro x hx hne
      simp only [List.mem_cons] at hx
      rcases hx with rfl | hx
      · exact absurd rfl hne
      · exact h.coreOk x hx (by simp)
    tab := by
      intro j x hx
      rcases h.tab j x hx with ⟨h1, _, h3⟩ | h1
      · left
        refine ⟨by simp [h1], ?_, fun _ => h3 (by simp)⟩
        intro e
        simp only [Option.some.injEq] at e
        exact absurd e.symm (hcore x h1)
      · right; exact h1
    avail := by
      intro j hj hn hs
      obtain ⟨x, h1, h2⟩ := h.avail j hj hn hs
      refine ⟨x, h1, ?_⟩
      rcases h2 with h2 | h2
      · left; simp [h2]
      · right; exact h2
    rpmLe := h.rpmLe
    mem := by simp
    type := h.freeOk a hafree
    old := fun _ _ h _ => h
    keep := fun _ h => h
    rpm := rfl
    source := rfl }

theorem newCore_grabbed {cfg : CacheCfg} {B : Nat → Bytes} {np : Bool} {c : Cache σ} {cnt id : Nat}
    (h : BInv cfg B np c cnt id none []) (hroom : c.coreCount + 1 ≤ cfg.maxCore) :
    Grabbed cfg B np c (newCore c).2 (newCore c).1 cnt id := by
  have hn := h.not_next
  have hnc : ∀ x ∈ c.core, x ≠ c.next := fun x hx e => hn (by simp [← e, hx])
  have hnp : ∀ x ∈ c.pages, x ≠ c.next := fun x hx e => hn (by simp [← e, hx])
  exact
  { nodup := by
      simp only [newCore, List.cons_append, List.nodup_cons]
      exact ⟨hn, h.nodup⟩
    lt := by
      intro x hx
      simp only [newCore, List.cons_append, List.mem_cons] at hx ⊢
      rcases hx with rfl | hx
      · omega
      · have := h.lt x hx; omega
    pageOk := by
      intro p hp
      have := hnp p hp
      simp only [newCore, upd, if_neg this]
      exact h.pageOk p hp
    offInj := by
      intro p hp q hq
      have h1 := hnp p hp
      have h2 := hnp q hq
      simp only [newCore, upd, if_neg h1, if_neg h2]
      exact h.offInj p hp q hq
    small := hroom
    count := by simp only [newCore, List.length_cons]; have := h.count; omega
    freeOk := by
      intro x hx
      have hx : x ∈ c.free := hx
      have : x ≠ c.next := fun e => hn (by simp [← e, hx])
      simp only [newCore, upd, if_neg this]
      exact h.freeOk x hx
    coreOk := by
      intro x hx hne
      simp only [newCore, List.mem_cons] at hx
      rcases hx with rfl | hx
      · exact absurd rfl hne
      · have := hnc x hx
        simp only [newCore, upd, if_neg this]
        exact h.coreOk x hx (by simp)
    tab := by
      intro j x hx
      rcases h.tab j x hx with ⟨h1, _, h3⟩ | h1
      · left
        have := hnc x h1
        refine ⟨by simp [newCore, h1], ?_, ?_⟩
        · intro e
          simp only [newCore, Option.some.injEq] at e
          exact absurd e.symm this
        · intro _
          simp only [newCore, upd, if_neg this]
          exact h3 (by simp)
      · right; exact h1
    avail := by
      intro j hj hn hs
      obtain ⟨x, h1, h2⟩ := h.avail j hj hn hs
      refine ⟨x, h1, ?_⟩
      rcases h2 with h2 | h2
      · left; simp [newCore, h2]
      · right
        refine ⟨h2.1, ?_⟩
        have := hnp x h2.1
        simp only [newCore, upd, if_neg this]
        exact h2.2
    rpmLe := h.rpmLe
    mem := by simp [newCore]
    type := by simp [newCore, upd]
    old := fun _ _ h _ => h
    keep := fun _ h => h
    rpm := rfl
    source := rfl }

/-- The cleanup loop keeps the invariant, and frees at most one block. -/
theorem cleanScan_spec {cfg : CacheCfg} {B : Nat → Bytes} {np : Bool} {c : Cache σ} {cnt id : Nat}
    (h : BInv cfg B np c cnt id none []) (hfree : c.free = []) :
    ∀ rest seen, c.core = seen ++ rest →
      cleanScan cfg c id cnt seen rest = .ok c ∨
      ∃ a c', cleanScan cfg c id cnt seen rest = .ok c' ∧ BInv cfg B np c' cnt id none [] ∧
        c'.free = [a] ∧ (∀ j x, c'.table j = some x → c.table j = some x) ∧
        c'.pages = c.pages ∧ c'.rpmId = c.rpmId ∧ c'.src = c.src := by
  intro rest
  induction rest with
  | nil => intro seen _; left; rfl
  | cons a rest ih =>
    intro seen hc
    have ha : a ∈ c.core := by rw [hc]; simp
    obtain ⟨a1, a2, a3, a4⟩ := h.coreOk a ha (by simp)
    rw [cleanScan, maxRd, if_pos a2, Out.bind_ok]
    split
    · rename_i hcond
      right
      have hperm : (seen ++ rest ++ (a :: c.free) ++ c.pages).Perm (c.core ++ c.free ++ c.pages) := by
        apply List.Perm.append_right
        rw [hc, List.append_assoc, List.append_assoc]
        apply List.Perm.append_left
        exact List.perm_middle
      have hnod : (seen ++ rest ++ (a :: c.free) ++ c.pages).Nodup := hperm.nodup_iff.mpr h.nodup
      have hasr : a ∉ seen ++ rest := by
        intro hm
        have := (List.nodup_append.mp (List.nodup_append.mp hnod).1).2.2
        exact this a hm a (by simp) rfl
      have hsub : ∀ x ∈ seen ++ rest, x ∈ c.core := by
        intro x hx; rw [hc]; simp at hx ⊢; rcases hx with h | h <;> simp [h]
      have hsup : ∀ x ∈ c.core, x ≠ a → x ∈ seen ++ rest := by
        intro x hx hne; rw [hc] at hx; simp at hx ⊢; rcases hx with h | h | h
        · exact Or.inl h
        · exact absurd h hne
        · exact Or.inr h
      refine ⟨a, _, tabWr_ok a2, ?_, by simp [hfree], ?_, rfl, rfl, rfl⟩
      · exact
        { nodup := hnod
          lt := fun x hx => h.lt x (hperm.mem_iff.mp hx)
          pageOk := (h.toPInv.setHeap _ (h.core_not_page ha)).pageOk
          offInj := (h.toPInv.setHeap _ (h.core_not_page ha)).offInj
          small := h.small
          count := by
            have := h.count
            rw [hc] at this
            simp only [List.length_append, List.length_cons] at this ⊢
            omega
          freeOk := by
            intro x hx
            simp only [hfree, List.mem_cons, List.not_mem_nil, or_false] at hx
            simp [upd, hx]
          coreOk := by
            intro x hx _
            have hxa : x ≠ a := fun e => hasr (e ▸ hx)
            obtain ⟨b1, b2, b3, b4⟩ := h.coreOk x (hsub x hx) (by simp)
            simp only [upd, if_neg hxa]
            refine ⟨b1, b2, b3, ?_⟩
            rw [if_neg]
            · exact b4
            · intro e; rw [e, a4] at b4; exact hxa (Option.some.inj b4).symm
          tab := by
            intro j x hx
            simp only [upd] at hx
            split at hx
            · cases hx
            · rename_i hj
              rcases h.tab j x hx with ⟨h1, h2, h3⟩ | h1
              · left
                have hxa : x ≠ a := fun e => hj (e ▸ (h3 (by simp)).symm)
                refine ⟨hsup x h1 hxa, (fun e => by cases e), fun _ => ?_⟩
                simp only [upd, if_neg hxa]
                exact h3 (by simp)
              · right; exact h1
          avail := by
            intro j hj hn hs
            obtain ⟨x, h1, h2⟩ := h.avail j hj hn hs
            have hja : j ≠ (c.heap a).id := by
              rintro rfl
              unfold Needed at hn
              omega
            refine ⟨x, by simp only [upd, if_neg hja]; exact h1, ?_⟩
            rcases h2 with h2 | h2
            · left
              refine hsup x h2 ?_
              rintro rfl
              rcases h.tab j x h1 with ⟨_, _, h3⟩ | ⟨h3, _⟩
              · exact hja (h3 (by simp)).symm
              · exact h.core_not_page ha h3
            · right
              have hxa : x ≠ a := fun e => h.core_not_page ha (e ▸ h2.1)
              refine ⟨h2.1, ?_⟩
              simp only [upd, if_neg hxa]
              exact h2.2
          rpmLe := h.rpmLe }
      · intro j x hx
        simp only [upd] at hx
        split at hx
        · cases hx
        · exact hx
    · exact ih (seen ++ [a]) (by rw [hc]; simp)

theorem evict_grabbed {cfg : CacheCfg} {B : Nat → Bytes} {np : Bool} {c : Cache σ} {cnt id : Nat}
    (h : BInv cfg B np c cnt id none []) (hne : c.core ≠ []) :
    ∃ a c', evict cfg c cnt = .ok (a, c') ∧ Grabbed cfg B np c c' a cnt id := by
  unfold evict
  rw [List.getLast?_eq_some_getLast hne]
  simp only
  generalize ha' : c.core.getLast hne = a
  have hsplit : c.core = c.core.dropLast ++ [a] := by rw [← ha']; exact (List.dropLast_concat_getLast hne).symm
  generalize hl : c.core.dropLast = l at *
  have ha : a ∈ c.core := by rw [hsplit]; simp
  have hperm : (a :: l ++ c.free ++ c.pages).Perm (c.core ++ c.free ++ c.pages) := by
    apply List.Perm.append_right
    apply List.Perm.append_right
    rw [hsplit]
    exact (List.perm_append_singleton a l).symm
  have hmem : ∀ x, x ∈ a :: l ↔ x ∈ c.core := by
    intro x; rw [hsplit]; simp [or_comm]
  obtain ⟨a1, a2, a3, a4⟩ := h.coreOk a ha (by simp)
  have hP : PInv cfg B { c with core := a :: l } :=
    ⟨hperm.nodup_iff.mpr h.nodup, fun x hx => h.lt x (hperm.mem_iff.mp hx), h.pageOk, h.offInj⟩
  unfold saveEvicted
  rcases a1 with ⟨_, t1, t2⟩ | ⟨_, t1, t2⟩
  · rw [if_pos t1]
    obtain ⟨p, c', w1, wP, w2, w3, w4, w5, w6, w7, w8, w9, w10, w11, w12, w13⟩ :=
      writePage_spec (cnt := cnt) hP (by simp) (by simp [t1]) a2 a3
    rw [w1, Out.bind_ok]
    refine ⟨a, _, rfl, ?_⟩
    simp only at w2 w4 w5 w6 w7 w8 w9 w10 w11 w12 w13
    have hac : a ∈ c'.core := by rw [w5]; simp
    have hap : p ≠ a := fun e => wP.core_not_page hac (e ▸ w3)
    have hcore : ∀ x ∈ c.core, c'.heap x = c.heap x := fun x hx => w11 x (by
      have := (hmem x).mpr hx
      simp only [List.mem_append]; left; exact this)
    exact
    { nodup := (wP.setHeap _ (wP.core_not_page hac)).nodup
      lt := (wP.setHeap _ (wP.core_not_page hac)).lt
      pageOk := (wP.setHeap _ (wP.core_not_page hac)).pageOk
      offInj := (wP.setHeap _ (wP.core_not_page hac)).offInj
      small := by simp only [w7]; exact h.small
      count := by
        have := h.count
        simp only [w7, w5, w6]
        rw [hsplit] at this
        simp at this ⊢
        omega
      freeOk := by
        intro x hx
        simp only [w6] at hx
        have hxa : x ≠ a := fun e => h.core_not_free ha (e ▸ hx)
        simp only [upd, if_neg hxa]
        rw [w11 x (by simp [hx])]
        exact h.freeOk x hx
      coreOk := by
        intro x hx hxa
        simp only at hx
        rw [w5] at hx
        have hx' : x ∈ c.core := (hmem x).mp hx
        have hxa : x ≠ a := fun e => hxa (by rw [e])
        obtain ⟨b1, b2, b3, b4⟩ := h.coreOk x hx' (by simp)
        simp only [upd, if_neg hxa, hcore x hx', w8]
        refine ⟨b1, b2, b3, ?_⟩
        rw [w2, upd, if_neg]
        · exact b4
        · intro e; rw [e, a4] at b4; exact hxa (Option.some.inj b4).symm
      tab := by
        intro j x hx
        simp only at hx
        rw [w2, upd] at hx
        split at hx
        · rename_i hj
          simp only [Option.some.injEq] at hx
          subst hx
          right
          refine ⟨w3, ?_⟩
          simp only [w8, hj]; exact t2
        · rename_i hj
          rcases h.tab j x hx with ⟨h1, _, h3⟩ | ⟨h1, h2⟩
          · left
            have hid := h3 (by simp)
            have hxa : x ≠ a := fun e => hj (e ▸ hid).symm
            refine ⟨by simp only [w5]; exact (hmem x).mpr h1, ?_, ?_⟩
            · intro e; exact absurd (Option.some.inj e).symm hxa
            · intro _
              simp only [upd, if_neg hxa, hcore x h1]
              exact hid
          · right; exact ⟨w12 x h1, by simp only [w8]; exact h2⟩
      avail := by
        intro j hj hn hs
        simp only [w8] at hj
        by_cases hja : j = (c.heap a).id
        · refine ⟨p, by simp only [w2, upd, if_pos hja], Or.inr ⟨w3, ?_⟩⟩
          simp only [upd, if_neg hap, w4]
          exact hja.symm
        · obtain ⟨x, h1, h2⟩ := h.avail j hj hn hs
          refine ⟨x, by simp only [w2, upd, if_neg hja]; exact h1, ?_⟩
          rcases h2 with h2 | ⟨h2, h3⟩
          · left; simp only [w5]; exact (hmem x).mpr h2
          · right
            refine ⟨w12 x h2, ?_⟩
            have hxa : x ≠ a := fun e => h.core_not_page ha (e ▸ h2)
            simp only [upd, if_neg hxa]
            rcases w13 x h2 with h4 | h4
            · rw [h4, h3]
            · rw [h3] at h4
              unfold Needed at hn
              omega
      rpmLe := by simp only [w8]; exact h.rpmLe
      mem := hac
      type := by simp [upd]
      old := by
        intro j x hx hxc
        simp only [w2, upd] at hx
        split at hx
        · simp only [Option.some.injEq] at hx
          exact absurd (hx ▸ w3) (wP.core_not_page hxc)
        · exact hx
      keep := w12
      rpm := w8
      source := w9 }
  · have ht : ¬ (c.heap a).type = .core := by rw [t1]; decide
    rw [if_neg ht, tabWr_ok a2, Out.bind_ok]
    refine ⟨a, _, rfl, ?_⟩
    have hap : a ∉ c.pages := h.core_not_page ha
    exact
    { nodup := hP.nodup
      lt := hP.lt
      pageOk := (hP.setHeap _ hap).pageOk
      offInj := (hP.setHeap _ hap).offInj
      small := h.small
      count := by
        have := h.count
        rw [hsplit] at this
        simp at this ⊢
        omega
      freeOk := by
        intro x hx
        have hx : x ∈ c.free := hx
        have hxa : x ≠ a := fun e => h.core_not_free ha (e ▸ hx)
        simp only [upd, if_neg hxa]
        exact h.freeOk x hx
      coreOk := by
        intro x hx hxa
        have hx' : x ∈ c.core := (hmem x).mp hx
        have hxa : x ≠ a := fun e => hxa (by rw [e])
        obtain ⟨b1, b2, b3, b4⟩ := h.coreOk x hx' (by simp)
        simp only [upd, if_neg hxa]
        refine ⟨b1, b2, b3, ?_⟩
        rw [if_neg]
        · exact b4
        · intro e; rw [e, a4] at b4; exact hxa (Option.some.inj b4).symm
      tab := by
        intro j x hx
        simp only [upd] at hx
        split at hx
        · cases hx
        · rename_i hj
          rcases h.tab j x hx with ⟨h1, _, h3⟩ | h1
          · left
            have hid := h3 (by simp)
            have hxa : x ≠ a := fun e => hj (e ▸ hid).symm
            refine ⟨(hmem x).mpr h1, ?_, ?_⟩
            · intro e; exact absurd (Option.some.inj e).symm hxa
            · intro _
              simp only [upd, if_neg hxa]
              exact hid
          · right; exact h1
      avail := by
        intro j hj hn hs
        have hj : j < c.rpmId := hj
        obtain ⟨x, h1, h2⟩ := h.avail j hj hn hs
        have hja : j ≠ (c.heap a).id := by omega
        refine ⟨x, by simp only [upd, if_neg hja]; exact h1, ?_⟩
        rcases h2 with h2 | ⟨h2, h3⟩
        · left; exact (hmem x).mpr h2
        · right
          have hxa : x ≠ a := fun e => hap (e ▸ h2)
          refine ⟨h2, ?_⟩
          simp only [upd, if_neg hxa]
          exact h3
      rpmLe := h.rpmLe
      mem := by simp
      type := by simp [upd]
      old := by
        intro j x hx hxc
        simp only [upd] at hx
        split at hx
        · cases hx
        · exact hx
      keep := fun _ h => h
      rpm := rfl
      source := rfl }

theorem BInv.setLastCleanup {cfg : CacheCfg} {B : Nat → Bytes} {c : Cache σ} {cnt id : Nat}
    {np : Bool} {hole : Option Nat} {ex : List Nat} (h : BInv cfg B np c cnt id hole ex) (l : Option Nat) (n : Nat) :
    BInv cfg B np { c with last := l, cleanup := n } cnt id hole ex :=
  { nodup := h.nodup, lt := h.lt, pageOk := h.pageOk, offInj := h.offInj, count := h.count, small := h.small, freeOk := h.freeOk,
    coreOk := h.coreOk, tab := h.tab, avail := h.avail, rpmLe := h.rpmLe }

theorem getFree_nil {c : Cache σ} (h : c.free = []) : getFree c = none := by rw [getFree, h]

theorem getFree_cons {c : Cache σ} {a : Nat} {rest : List Nat} (h : c.free = a :: rest) :
    getFree c = some (a, { c with free := rest, core := a :: c.core }) := by rw [getFree, h]

theorem grabBlock_spec {cfg : CacheCfg} {B : Nat → Bytes} {np : Bool} {c : Cache σ} {cnt id : Nat}
    (h : BInv cfg B np c cnt id none []) (hmax : 0 < cfg.maxCore) :
    ∃ a c', grabBlock cfg c id cnt = .ok (a, c') ∧ Grabbed cfg B np c c' a cnt id := by
  unfold grabBlock
  have hcases : c.free = [] ∨ ∃ a rest, c.free = a :: rest := by cases c.free <;> simp
  rcases hcases with hfree | ⟨a, rest, hfree⟩
  rotate_left
  · rw [getFree_cons hfree]
    exact ⟨_, _, rfl, getFree_grabbed h hfree⟩
  · rw [getFree_nil hfree]
    simp only
    split
    · rename_i hr
      have h' := h.setLastCleanup c.last ((c.cleanup + 1) % 2^64)
      have := newCore_grabbed h' hr.1
      exact ⟨_, _, rfl, { this with old := this.old, keep := this.keep, rpm := this.rpm, source := this.source }⟩
    · generalize hk : (if c.coreCount < cfg.maxCore then (c.cleanup + 1) % 2 ^ 64 else c.cleanup) = k
      have h' := h.setLastCleanup c.last k
      rcases cleanScan_spec h' hfree c.core [] rfl with hc | ⟨a, c', hc, hi, hcf, hco, hcp, hcr, hcs⟩
      · have hc : cleanScan cfg { c with cleanup := k } id cnt [] c.core = .ok { c with cleanup := k } := hc
        rw [hc, Out.bind_ok, getFree_nil (by exact hfree)]
        simp only
        split
        · rename_i hr
          have := newCore_grabbed h' hr
          exact ⟨_, _, rfl, { this with old := this.old, keep := this.keep, rpm := this.rpm, source := this.source }⟩
        · rename_i hge
          have hne : c.core ≠ [] := by
            intro e
            have := h.count
            rw [e, hfree] at this
            simp at this hge
            omega
          obtain ⟨a, c', he, hg⟩ := evict_grabbed h' hne
          exact ⟨a, c', he, { hg with old := hg.old, keep := hg.keep, rpm := hg.rpm, source := hg.source }⟩
      · have hc : cleanScan cfg { c with cleanup := k } id cnt [] c.core = .ok c' := hc
        rw [hc, Out.bind_ok, getFree_cons hcf]
        have := getFree_grabbed hi hcf
        exact ⟨_, _, rfl, { this with old := (fun j x h1 h2 => hco j x (this.old j x h1 h2)),
                                      keep := (fun q hq => this.keep q (by rw [hcp]; exact hq)),
                                      rpm := this.rpm.trans hcr, source := this.source.trans hcs }⟩

end Drpm
