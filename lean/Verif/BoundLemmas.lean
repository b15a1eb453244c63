import Verif.PrelinkFill
import Verif.Props.Cpio
/-!
# What the cache may hold, whatever is asked of it

Unlike in `CacheLemmas.lean` nothing is assumed about the delta, the old data or the requests.
-/

namespace Drpm

variable {σ : Type} {cfg : CacheCfg} {I : σ → Prop}

/-- The bounds on the cache; `I` holds of the source of the blocks. -/
structure CacheBound (cfg : CacheCfg) (I : σ → Prop) (c : Cache σ) : Prop where
  count : c.core.length + c.free.length = c.coreCount
  limit : c.coreCount ≤ cfg.maxCore
  coreNext : ∀ a ∈ c.core, a < c.next ∧ a ∉ c.pages
  freeNext : ∀ a ∈ c.free, a < c.next ∧ a ∉ c.pages
  pageNext : ∀ a ∈ c.pages, a < c.next
  pages : c.pages.length = c.pageCount
  ids : (c.pages.map fun p => (c.heap p).id).Nodup
  inside : ∀ p ∈ c.pages, (c.heap p).id < cfg.nblk ∧ (c.heap p).off < c.pageCount
  clean : ∀ k, c.pageCount ≤ k → c.pageFile k = []
  src : I c.src

/-- A block that is not a page. -/
def Mine (c : Cache σ) (a : Nat) : Prop := a < c.next ∧ a ∉ c.pages

theorem cacheBound_init {s : σ} (h : I s) (cleanup : Nat) : CacheBound cfg I (emptyCache s cleanup) where
  count := rfl
  limit := Nat.zero_le _
  coreNext := nofun
  freeNext := nofun
  pageNext := nofun
  pages := rfl
  ids := List.nodup_nil
  inside := nofun
  clean := fun _ _ => rfl
  src := h

/-- Writing a block that is not a page. -/
theorem CacheBound.heap {c : Cache σ} (h : CacheBound cfg I c) {a : Nat} (ha : a ∉ c.pages) (b : Blk) :
    CacheBound cfg I { c with heap := upd c.heap a b } := by
  have e : ∀ p ∈ c.pages, upd c.heap a b p = c.heap p := fun p hp => by
    unfold upd
    rw [if_neg (fun (h' : p = a) => ha (h' ▸ hp))]
  have e' : c.pages.map (fun p => (upd c.heap a b p).id) = c.pages.map (fun p => (c.heap p).id) :=
    List.map_congr_left (fun p hp => by rw [e p hp])
  exact { h with
    ids := by simp only; rw [e']; exact h.ids
    inside := fun p hp => by simp only; rw [e p hp]; exact h.inside p hp }

theorem tabWr_put {c c' : Cache σ} {id : Nat} {v : Option Nat} (h : tabWr cfg c id v = .ok c') :
    id < cfg.nblk ∧ c' = { c with table := upd c.table id v } := by
  unfold tabWr at h
  split at h
  · cases h; exact ⟨by assumption, rfl⟩
  · cases h

theorem CacheBound.table {c c' : Cache σ} (h : CacheBound cfg I c) {id : Nat} {v : Option Nat} (hw : tabWr cfg c id v = .ok c') :
    CacheBound cfg I c' ∧ c'.next = c.next ∧ c'.pages = c.pages ∧ c'.heap = c.heap := by
  obtain ⟨_, rfl⟩ := tabWr_put hw
  exact ⟨{ h with }, rfl, rfl, rfl⟩

theorem getFree_bound {c c' : Cache σ} {a : Nat} (h : CacheBound cfg I c) (hg : getFree c = some (a, c')) :
    CacheBound cfg I c' ∧ a < c'.next ∧ a ∉ c'.pages ∧ c'.next = c.next ∧ c'.pages = c.pages ∧ c'.heap = c.heap ∧ c'.coreCount = c.coreCount := by
  unfold getFree at hg
  split at hg
  · cases hg
  · rename_i x rest hf
    cases hg
    obtain ⟨h1, h2⟩ := h.freeNext a (by rw [hf]; exact List.mem_cons_self)
    refine ⟨{ h with
      count := ?_
      coreNext := fun b hb => ?_
      freeNext := fun b hb => h.freeNext b (by rw [hf]; exact List.mem_cons_of_mem _ hb) }, h1, h2, rfl, rfl, rfl, rfl⟩
    · have := h.count
      rw [hf] at this
      simp only [List.length_cons] at this ⊢
      omega
    · rcases List.mem_cons.mp hb with rfl | hb
      · exact ⟨h1, h2⟩
      · exact h.coreNext b hb

theorem newCore_bound {c : Cache σ} (h : CacheBound cfg I c) (hc : c.coreCount < cfg.maxCore) :
    CacheBound cfg I (newCore c).2 ∧ (newCore c).1 < (newCore c).2.next ∧ (newCore c).1 ∉ (newCore c).2.pages ∧
      (newCore c).2.next = c.next + 1 ∧ (newCore c).2.pages = c.pages ∧ (∀ b, b < c.next → (newCore c).2.heap b = c.heap b) := by
  have hn : c.next ∉ c.pages := fun hp => by have := h.pageNext _ hp; omega
  have h1 : CacheBound cfg I { c with heap := upd c.heap c.next ⟨.free, 0, [], 0⟩ } := h.heap hn _
  refine ⟨⟨?_, hc, ?_, ?_, ?_, h1.pages, h1.ids, h1.inside, h1.clean, h1.src⟩, Nat.lt_succ_self _, hn, rfl, rfl, fun b hb => ?_⟩
  · have := h.count
    show c.core.length + 1 + c.free.length = c.coreCount + 1
    omega
  · intro b hb
    rcases List.mem_cons.mp hb with rfl | hb
    · exact ⟨Nat.lt_succ_self _, hn⟩
    · exact ⟨Nat.lt_succ_of_lt (h.coreNext b hb).1, (h.coreNext b hb).2⟩
  · exact fun b hb => ⟨Nat.lt_succ_of_lt (h.freeNext b hb).1, (h.freeNext b hb).2⟩
  · exact fun b hb => Nat.lt_succ_of_lt (h.pageNext b hb)
  · show upd _ _ _ b = _
    unfold upd
    rw [if_neg (by omega)]

theorem nodup_map_upd {α : Type} (f : Nat → α) (g : Nat → α) (p : Nat) : ∀ (l : List Nat), (l.map f).Nodup → (∀ x ∈ l, f x ≠ g p) →
    (∀ x ∈ l, x ≠ p → g x = f x) → (l.map g).Nodup := by
  intro l
  induction l with
  | nil => intro _ _ _; exact List.nodup_nil
  | cons x l ih =>
    intro h1 h2 h3
    rw [List.map_cons, List.nodup_cons] at h1 ⊢
    refine ⟨fun hm => ?_, ih h1.2 (fun y hy => h2 y (List.mem_cons_of_mem _ hy)) (fun y hy => h3 y (List.mem_cons_of_mem _ hy))⟩
    rw [List.mem_map] at hm
    obtain ⟨y, hy, e⟩ := hm
    have hxy : y ≠ x := fun h => h1.1 (h ▸ List.mem_map_of_mem hy)
    by_cases hx : x = p
    · subst hx
      rw [h3 y (List.mem_cons_of_mem _ hy) hxy] at e
      exact h2 y (List.mem_cons_of_mem _ hy) e
    · rw [h3 x List.mem_cons_self hx] at e
      by_cases hyp : y = p
      · subst hyp
        exact h2 x List.mem_cons_self e.symm
      · rw [h3 y (List.mem_cons_of_mem _ hy) hyp] at e
        exact h1.1 (e ▸ List.mem_map_of_mem hy)

theorem findOldPage_mem {c : Cache σ} {cnt : Nat} : ∀ (l : List Nat) {p : Nat}, findOldPage cfg c cnt l = .ok (some p) → p ∈ l := by
  intro l
  induction l with
  | nil => intro p h; cases h
  | cons x l ih =>
    intro p h
    rw [findOldPage, Out.bind_eq_ok] at h
    obtain ⟨m, _, h⟩ := h
    split at h
    · cases h; exact List.mem_cons_self
    · exact List.mem_cons_of_mem _ (ih h)

/-- Setting the number and the contents of a page. -/
theorem CacheBound.setPage {c : Cache σ} (h : CacheBound cfg I c) {p id : Nat} (hp : p ∈ c.pages) (hid : id < cfg.nblk)
    (hne : ∀ x ∈ c.pages, x ≠ p → (c.heap x).id ≠ id) (buf : Bytes) :
    CacheBound cfg I { c with heap := upd c.heap p { c.heap p with id := id }, pageFile := upd c.pageFile (c.heap p).off buf } := by
  have hoff := (h.inside p hp).2
  have e1 : upd c.heap p { c.heap p with id := id } p = { c.heap p with id := id } := by unfold upd; rw [if_pos rfl]
  have e2 : ∀ x, x ≠ p → upd c.heap p { c.heap p with id := id } x = c.heap x := fun x hx => by unfold upd; rw [if_neg hx]
  refine { h with ids := ?_, inside := ?_, clean := ?_ }
  · by_cases hsame : (c.heap p).id = id
    · have : c.pages.map (fun x => (upd c.heap p { c.heap p with id := id } x).id) = c.pages.map (fun x => (c.heap x).id) := by
        refine List.map_congr_left (fun x _ => ?_)
        by_cases hx : x = p
        · subst hx; rw [e1]; exact hsame.symm
        · rw [e2 x hx]
      simp only
      rw [this]
      exact h.ids
    · refine nodup_map_upd (fun x => (c.heap x).id) _ p _ h.ids (fun x hx => ?_) (fun x _ hx => congrArg Blk.id (e2 x hx))
      show (c.heap x).id ≠ (upd c.heap p { c.heap p with id := id } p).id
      rw [e1]
      by_cases hxp : x = p
      · subst hxp; exact hsame
      · exact hne x hx hxp
  · intro x hx
    by_cases hxp : x = p
    · subst hxp; simp only; rw [e1]; exact ⟨hid, hoff⟩
    · simp only; rw [e2 x hxp]; exact h.inside x hx
  · intro k hk
    show upd c.pageFile _ buf k = []
    unfold upd
    rw [if_neg (by simp only at hk; omega)]
    exact h.clean k hk

theorem writePage_bound {c c' : Cache σ} {a cnt : Nat} (h : CacheBound cfg I c) (hw : writePage cfg c a cnt = .ok c') :
    CacheBound cfg I c' ∧ (∀ b, b < c.next → b ∉ c.pages → b < c'.next ∧ b ∉ c'.pages) := by
  unfold writePage at hw
  split at hw
  · cases hw
  · cases hf : findPage c (c.heap a).id with
    | some p =>
      rw [hf] at hw
      obtain ⟨h1, h2, h3, _⟩ := h.table hw
      exact ⟨h1, fun b hb hp => by rw [h2, h3]; exact ⟨hb, hp⟩⟩
    | none =>
      rw [hf] at hw
      simp only at hw
      rw [Out.bind_eq_ok] at hw
      obtain ⟨old, ho, hw⟩ := hw
      have hne : ∀ x ∈ c.pages, (c.heap x).id ≠ (c.heap a).id := by
        intro x hx he
        unfold findPage at hf
        rw [List.find?_eq_none] at hf
        exact hf x hx (by simpa using he)
      cases old with
      | some p =>
        simp only [takePage] at hw
        have hp := findOldPage_mem _ ho
        obtain ⟨hid, _⟩ := tabWr_put hw
        obtain ⟨h1, h2, h3, _⟩ := (h.setPage hp hid (fun x hx _ => hne x hx) (c.heap a).buf).table hw
        exact ⟨h1, fun b hb hq => by rw [h2, h3]; exact ⟨hb, hq⟩⟩
      | none =>
        simp only [takePage] at hw
        obtain ⟨hid, _⟩ := tabWr_put hw
        have hn : c.next ∉ c.pages := fun hp => by have := h.pageNext _ hp; omega
        have e1 : upd c.heap c.next (⟨.page, 0, [], c.pageCount⟩ : Blk) c.next = ⟨.page, 0, [], c.pageCount⟩ := by unfold upd; rw [if_pos rfl]
        have e2 : ∀ (b d : Blk) x, x ≠ c.next → upd (upd c.heap c.next b) c.next d x = c.heap x := fun b d x hx => by
          unfold upd; rw [if_neg hx, if_neg hx]
        have e3 : ∀ (b d : Blk), upd (upd c.heap c.next b) c.next d c.next = d := fun b d => by unfold upd; rw [if_pos rfl]
        have hb : CacheBound cfg I { c with
            heap := upd (upd c.heap c.next ⟨.page, 0, [], c.pageCount⟩) c.next
              { (upd c.heap c.next (⟨.page, 0, [], c.pageCount⟩ : Blk) c.next) with id := (c.heap a).id }
            next := c.next + 1, pages := c.next :: c.pages, pageCount := c.pageCount + 1
            pageFile := upd c.pageFile (upd c.heap c.next (⟨.page, 0, [], c.pageCount⟩ : Blk) c.next).off (c.heap a).buf } := by
          rw [e1]
          refine ⟨h.count, h.limit, ?_, ?_, ?_, ?_, ?_, ?_, ?_, h.src⟩
          · intro b hb
            obtain ⟨k1, k2⟩ := h.coreNext b hb
            exact ⟨Nat.lt_succ_of_lt k1, fun hm => (List.mem_cons.mp hm).elim (fun e => by omega) k2⟩
          · intro b hb
            obtain ⟨k1, k2⟩ := h.freeNext b hb
            exact ⟨Nat.lt_succ_of_lt k1, fun hm => (List.mem_cons.mp hm).elim (fun e => by omega) k2⟩
          · intro b hb
            rcases List.mem_cons.mp hb with rfl | hb
            · exact Nat.lt_succ_self _
            · exact Nat.lt_succ_of_lt (h.pageNext b hb)
          · show c.pages.length + 1 = _
            rw [h.pages]
          · simp only [List.map_cons, e3]
            have : c.pages.map (fun x => (upd (upd c.heap c.next ⟨.page, 0, [], c.pageCount⟩) c.next ⟨.page, (c.heap a).id, [], c.pageCount⟩ x).id) =
                c.pages.map (fun x => (c.heap x).id) := List.map_congr_left (fun x hx => by rw [e2 _ _ x (fun h' => hn (h' ▸ hx))])
            rw [this, List.nodup_cons]
            refine ⟨fun hm => ?_, h.ids⟩
            rw [List.mem_map] at hm
            obtain ⟨x, hx, e⟩ := hm
            exact hne x hx e
          · intro x hx
            rcases List.mem_cons.mp hx with rfl | hx
            · simp only [e3]
              exact ⟨hid, Nat.lt_succ_self _⟩
            · simp only
              rw [e2 _ _ x (fun h' => hn (h' ▸ hx))]
              exact ⟨(h.inside x hx).1, Nat.lt_succ_of_lt (h.inside x hx).2⟩
          · intro k hk
            simp only at hk ⊢
            show upd c.pageFile c.pageCount _ k = []
            unfold upd
            rw [if_neg (by omega)]
            exact h.clean k (by omega)
        obtain ⟨h1, h2, h3, _⟩ := hb.table hw
        refine ⟨h1, fun b hb hq => ?_⟩
        rw [h2, h3]
        exact ⟨Nat.lt_succ_of_lt hb, fun hm => (List.mem_cons.mp hm).elim (fun e => by omega) hq⟩

/-- Nothing that was not a page becomes one. -/
def Grows (c c' : Cache σ) : Prop := ∀ b, Mine c b → Mine c' b

theorem Grows.trans {a b c : Cache σ} (h : Grows a b) (h' : Grows b c) : Grows a c := fun x hx => h' x (h x hx)

theorem tabWr_grows {c c' : Cache σ} {id : Nat} {v : Option Nat} (hw : tabWr cfg c id v = .ok c') : Grows c c' := by
  obtain ⟨_, rfl⟩ := tabWr_put hw
  exact fun b hb => hb

theorem copyBlock_bound {c c' : Cache σ} {a n : Nat} (h : CacheBound cfg I c) (hn : Mine c n) (hw : copyBlock cfg c a n = .ok c') :
    CacheBound cfg I c' ∧ Grows c c' :=
  ⟨((h.heap hn.2 _).table hw).1, fun b hb => tabWr_grows hw b hb⟩

theorem pushBlock_bound {c c' : Cache σ} {a cnt : Nat} (h : CacheBound cfg I c) (hw : pushBlock cfg c a cnt = .ok c') :
    CacheBound cfg I c' ∧ Grows c c' := by
  unfold pushBlock at hw
  split at hw
  · rename_i n c1 hg
    obtain ⟨h1, h2, h3, h4, h5, _⟩ := getFree_bound h hg
    obtain ⟨k1, k2⟩ := copyBlock_bound h1 ⟨h2, h3⟩ hw
    exact ⟨k1, fun b hb => k2 b (by unfold Mine; rw [h4, h5]; exact hb)⟩
  · split at hw
    · rename_i hc
      obtain ⟨h1, h2, h3, h4, h5, _⟩ := newCore_bound h hc
      obtain ⟨k1, k2⟩ := copyBlock_bound h1 ⟨h2, h3⟩ hw
      exact ⟨k1, fun b hb => k2 b (by unfold Mine; rw [h4, h5]; exact ⟨Nat.lt_succ_of_lt hb.1, hb.2⟩)⟩
    · split at hw
      · obtain ⟨k1, k2⟩ := writePage_bound h hw
        exact ⟨k1, fun b hb => k2 b hb.1 hb.2⟩
      · exact ⟨(h.table hw).1, tabWr_grows hw⟩

theorem cleanScan_bound {id cnt : Nat} : ∀ (l seen : List Nat) {c c' : Cache σ}, CacheBound cfg I c → c.core = seen ++ l →
    cleanScan cfg c id cnt seen l = .ok c' → CacheBound cfg I c' ∧ c'.coreCount = c.coreCount := by
  intro l
  induction l with
  | nil => intro seen c c' h _ hw; cases hw; exact ⟨h, rfl⟩
  | cons a l ih =>
    intro seen c c' h hcore hw
    rw [cleanScan, Out.bind_eq_ok] at hw
    obtain ⟨m, _, hw⟩ := hw
    split at hw
    · have ha := h.coreNext a (by rw [hcore]; simp)
      have h1 := h.heap ha.2 { c.heap a with type := .free }
      have h2 : CacheBound cfg I { c with core := seen ++ l, free := a :: c.free, heap := upd c.heap a { c.heap a with type := .free } } := by
        refine { h1 with count := ?_, coreNext := ?_, freeNext := ?_ }
        · have := h.count
          rw [hcore] at this
          simp only [List.length_append, List.length_cons] at this ⊢
          omega
        · intro b hb
          refine h.coreNext b ?_
          rw [hcore]
          simp only [List.mem_append, List.mem_cons] at hb ⊢
          rcases hb with hb | hb
          · exact .inl hb
          · exact .inr (.inr hb)
        · intro b hb
          rcases List.mem_cons.mp hb with rfl | hb
          · exact ha
          · exact h.freeNext b hb
      obtain ⟨_, rfl⟩ := tabWr_put hw
      exact ⟨(h2.table hw).1, rfl⟩
    · exact ih (seen ++ [a]) h (by rw [hcore]; simp) hw

theorem evict_bound {c c' : Cache σ} {a cnt : Nat} (h : CacheBound cfg I c) (hw : evict cfg c cnt = .ok (a, c')) :
    CacheBound cfg I c' ∧ Mine c' a := by
  unfold evict at hw
  cases hl : c.core.getLast? with
  | none => rw [hl] at hw; cases hw
  | some x =>
    rw [hl] at hw
    simp only at hw
    rw [Out.bind_eq_ok] at hw
    obtain ⟨c1, hs, hw⟩ := hw
    simp only [Out.ok.injEq, Prod.mk.injEq] at hw
    obtain ⟨rfl, rfl⟩ := hw
    have hx : x ∈ c.core := List.mem_of_getLast? hl
    have hmine : Mine c x := h.coreNext x hx
    have h1 : CacheBound cfg I { c with core := x :: c.core.dropLast } := by
      refine { h with count := ?_, coreNext := ?_ }
      · have := h.count
        have hpos := List.length_pos_of_mem hx
        simp only [List.length_cons, List.length_dropLast]
        omega
      · intro b hb
        rcases List.mem_cons.mp hb with rfl | hb
        · exact hmine
        · exact h.coreNext b (List.dropLast_subset _ hb)
    have h2 : CacheBound cfg I c1 ∧ Mine c1 x := by
      unfold saveEvicted at hs
      split at hs
      · obtain ⟨k1, k2⟩ := writePage_bound h1 hs
        exact ⟨k1, k2 x hmine.1 hmine.2⟩
      · exact ⟨(h1.table hs).1, tabWr_grows hs x hmine⟩
    exact ⟨h2.1.heap h2.2.2 _, h2.2⟩

theorem grabBlock_bound {c c' : Cache σ} {a id cnt : Nat} (h : CacheBound cfg I c) (hw : grabBlock cfg c id cnt = .ok (a, c')) :
    CacheBound cfg I c' ∧ Mine c' a := by
  unfold grabBlock at hw
  split at hw
  · rename_i r hg
    cases hw
    obtain ⟨h1, h2, h3, _⟩ := getFree_bound h hg
    exact ⟨h1, h2, h3⟩
  · split at hw
    · rename_i hc
      have h0 : CacheBound cfg I { c with cleanup := (c.cleanup + 1) % 2^64 } := { h with }
      obtain ⟨h1, h2, h3, _⟩ := newCore_bound h0 hc.1
      injection hw with hw
      rw [hw] at h1 h2 h3
      exact ⟨h1, h2, h3⟩
    · rw [Out.bind_eq_ok] at hw
      obtain ⟨c1, hs, hw⟩ := hw
      have h0 : CacheBound cfg I { c with cleanup := if c.coreCount < cfg.maxCore then (c.cleanup + 1) % 2^64 else c.cleanup } := { h with }
      obtain ⟨h1, _⟩ := cleanScan_bound c.core [] h0 rfl hs
      split at hw
      · rename_i r hg
        cases hw
        obtain ⟨k1, k2, k3, _⟩ := getFree_bound h1 hg
        exact ⟨k1, k2, k3⟩
      · split at hw
        · rename_i hc
          obtain ⟨k1, k2, k3, _⟩ := newCore_bound h1 hc
          injection hw with hw
          rw [hw] at k1 k2 k3
          exact ⟨k1, k2, k3⟩
        · exact evict_bound h1 hw

/-- A filler that keeps the bounds. -/
def FillBound (cfg : CacheCfg) (I : σ → Prop) (fill : Filler σ) : Prop :=
  ∀ c a id cnt c', CacheBound cfg I c → Mine c a → fill c a id cnt = .ok c' → CacheBound cfg I c'

theorem loadBlock_bound {fill : Filler σ} (hf : FillBound cfg I fill) {c c' : Cache σ} {a id cnt : Nat} (h : CacheBound cfg I c)
    (ha : Mine c a) (hw : loadBlock cfg fill c a id cnt = .ok c') : CacheBound cfg I c' := by
  unfold loadBlock at hw
  rw [Out.bind_eq_ok] at hw
  obtain ⟨page, _, hw⟩ := hw
  rw [Out.bind_eq_ok] at hw
  obtain ⟨c1, ht, hw⟩ := hw
  have h1 := (h.table ht).1
  have ha1 := tabWr_grows ht a ha
  split at hw
  · split at hw
    · unfold readPage at hw
      split at hw
      · cases hw
      · exact ((h1.heap ha1.2 _).table hw).1
    · exact hf _ _ _ _ _ h1 ha1 hw
  · exact hf _ _ _ _ _ h1 ha1 hw

theorem getBlock_bound {fill : Filler σ} (hf : FillBound cfg I fill) {c c' : Cache σ} {a id cnt : Nat} (h : CacheBound cfg I c)
    (hw : getBlock cfg fill c id cnt = .ok (a, c')) : CacheBound cfg I c' := by
  unfold getBlock at hw
  rw [Out.bind_eq_ok] at hw
  obtain ⟨⟨a1, c1⟩, hg, hw⟩ := hw
  simp only at hw
  rw [Out.bind_eq_ok] at hw
  obtain ⟨c2, hl, hw⟩ := hw
  cases hw
  have h0 : CacheBound cfg I { c with last := none } := { h with }
  obtain ⟨h1, h2⟩ := grabBlock_bound h0 hg
  exact loadBlock_bound hf h1 h2 hl

theorem findBlock_bound {fill : Filler σ} (hf : FillBound cfg I fill) {c c' : Cache σ} {a id cnt : Nat} (h : CacheBound cfg I c)
    (hw : findBlock cfg fill c cnt id = .ok (a, c')) : CacheBound cfg I c' := by
  unfold findBlock at hw
  rw [Out.bind_eq_ok] at hw
  obtain ⟨o, _, hw⟩ := hw
  cases o with
  | none => exact getBlock_bound hf h hw
  | some b =>
    simp only at hw
    split at hw
    · exact getBlock_bound hf h hw
    · cases hw; exact h

theorem blocksNext_bound {fill : Filler σ} (hf : FillBound cfg I fill) {c c' : Cache σ} {b : Bytes} {off len cnt id : Nat}
    (h : CacheBound cfg I c) (hw : blocksNext cfg fill c off len cnt id = .ok (b, c')) : CacheBound cfg I c' := by
  unfold blocksNext at hw
  rw [Out.bind_eq_ok] at hw
  obtain ⟨⟨a1, c1⟩, hg, hw⟩ := hw
  simp only at hw
  rw [Out.bind_eq_ok] at hw
  obtain ⟨d, _, hw⟩ := hw
  cases hw
  have h1 : CacheBound cfg I c1 := by
    unfold lastBlock at hg
    split at hg
    · split at hg
      · cases hg; exact h
      · exact findBlock_bound hf h hg
    · exact findBlock_bound hf h hg
  exact { h1 with }

/-! ## Filling from a package -/

theorem fillSeq_bound {step : σ → Out (Bytes × σ)} (hs : ∀ s b s', I s → step s = .ok (b, s') → I s') {a id cnt : Nat} :
    ∀ (fuel : Nat) {c c' : Cache σ}, CacheBound cfg I c → Mine c a → fillSeq cfg step fuel c a id cnt = .ok c' → CacheBound cfg I c' := by
  intro fuel
  induction fuel with
  | zero => intro c c' _ _ hw; cases hw
  | succ n ih =>
    intro c c' h ha hw
    rw [fillSeq, Out.bind_eq_ok] at hw
    obtain ⟨⟨b, src⟩, hst, hw⟩ := hw
    simp only at hw
    have h1 : CacheBound cfg I { c with src := src, rpmId := c.rpmId + 1 } := { h with src := hs _ _ _ h.src hst }
    have h2 := h1.heap (a := a) ha.2 { c.heap a with type := .core, id := c.rpmId, buf := b }
    split at hw
    · cases hw; exact h2
    · split at hw
      · cases hw
      · rw [Out.bind_eq_ok] at hw
        obtain ⟨c1, hk, hw⟩ := hw
        have h3 : CacheBound cfg I c1 ∧ Mine c1 a := by
          unfold keepPassed at hk
          rw [Out.bind_eq_ok] at hk
          obtain ⟨m, _, hk⟩ := hk
          split at hk
          · obtain ⟨k1, k2⟩ := pushBlock_bound h2 hk
            exact ⟨k1, k2 a ha⟩
          · cases hk; exact ⟨h2, ha⟩
        exact ih h3.1 h3.2 hw

theorem rpmFiller_bound {step : σ → Out (Bytes × σ)} (hs : ∀ s b s', I s → step s = .ok (b, s') → I s') :
    FillBound cfg I (rpmFiller cfg step) := fun _ _ _ _ _ h ha hw => fillSeq_bound hs _ h ha hw

/-! ## Filling from installed files -/

/-- The bounds on the open files. -/
structure FsBound (s : FsSt) : Prop where
  len : s.order.length = s.count
  limit : s.count ≤ maxOpen
  nodup : s.order.Nodup
  inside : ∀ a ∈ s.order, a < s.count
  tab : ∀ i a, s.tab i = some a → a ∈ s.order

theorem fsBound_init : FsBound FsSt.init := ⟨rfl, Nat.zero_le _, List.nodup_nil, nofun, nofun⟩

theorem addOpen_bound {s s' : FsSt} {i : Nat} {n d : Bytes} (h : FsBound s) (hw : addOpen s i n d = .ok s') : FsBound s' := by
  unfold addOpen at hw
  split at hw
  · rename_i hc
    cases hw
    have hn : s.count ∉ s.order := fun hm => Nat.lt_irrefl _ (h.inside _ hm)
    refine ⟨?_, hc, ?_, ?_, ?_⟩
    · simp only [List.length_append, List.length_singleton, h.len]
    · rw [List.nodup_append]
      refine ⟨h.nodup, by simp, ?_⟩
      intro a ha b hb hab
      rw [List.mem_singleton] at hb
      subst hb; subst hab
      exact hn ha
    · intro a ha
      simp only [List.mem_append, List.mem_singleton] at ha
      rcases ha with ha | rfl
      · exact Nat.lt_succ_of_lt (h.inside a ha)
      · exact Nat.lt_succ_self _
    · intro j a hj
      simp only at hj
      split at hj
      · cases hj; simp
      · exact List.mem_append_left _ (h.tab j a hj)
  · split at hw
    · cases hw
    · rename_i x rest ho
      cases hw
      have hnd := h.nodup
      rw [ho, List.nodup_cons] at hnd
      have hl := h.len
      rw [ho] at hl
      have hmem : ∀ a, a ∈ rest ++ [x] ↔ a ∈ s.order := by
        intro a; rw [ho, List.mem_append, List.mem_singleton, List.mem_cons]; exact Or.comm
      refine ⟨?_, h.limit, ?_, fun a ha => h.inside a ((hmem a).mp ha), ?_⟩
      · simp only [List.length_append, List.length_singleton]
        rw [← hl]; rfl
      · rw [List.nodup_append]
        refine ⟨hnd.2, by simp, ?_⟩
        intro a ha b hb hab
        rw [List.mem_singleton] at hb
        subst hb; subst hab
        exact hnd.1 ha
      · intro j a hj
        simp only at hj
        split at hj
        · cases hj; simp
        · exact (hmem a).mpr (h.tab j a hj)

theorem openNew_bound {r : FsIn} {s s' : FsSt} {i : Nat} {p : Bool} (h : FsBound s) (hw : openNew r s i = .ok (p, s')) : FsBound s' := by
  unfold openNew at hw
  rw [Out.bind_eq_ok] at hw
  obtain ⟨cpio, _, hw⟩ := hw
  split at hw
  · cases hw
  · rw [Out.bind_eq_ok] at hw
    obtain ⟨f, _, hw⟩ := hw
    split at hw
    · cases hw
    · rw [Out.bind_eq_ok] at hw
      obtain ⟨pre, _, hw⟩ := hw
      split at hw
      · cases hw; exact h
      · rw [Out.bind_eq_ok] at hw
        obtain ⟨s1, ha, hw⟩ := hw
        cases hw
        exact addOpen_bound h ha

theorem getOpen_bound {r : FsIn} {s s' : FsSt} {i : Nat} {o : Option Nat} (h : FsBound s) (hw : getOpen r s i = .ok (o, s')) :
    FsBound s' := by
  unfold getOpen at hw
  split at hw
  · split at hw
    · cases hw; exact h
    · rename_i a ht
      cases hw
      have hmem : ∀ b, b ∈ s.order.filter (fun b => decide (b ≠ a)) ++ [a] ↔ b ∈ s.order := by
        intro b
        simp only [List.mem_append, List.mem_filter, List.mem_singleton, decide_eq_true_eq]
        constructor
        · rintro (hb | rfl)
          · exact hb.1
          · exact h.tab i b ht
        · intro hb
          by_cases he : b = a
          · exact .inr he
          · exact .inl ⟨hb, he⟩
      have hnd : (s.order.filter (fun b => decide (b ≠ a)) ++ [a]).Nodup := by
        rw [List.nodup_append]
        refine ⟨h.nodup.sublist List.filter_sublist, by simp, ?_⟩
        intro x hx y hy hxy
        rw [List.mem_singleton] at hy
        have := (List.mem_filter.mp hx).2
        rw [decide_eq_true_eq] at this
        exact this (hxy.trans hy)
      refine ⟨?_, h.limit, hnd, fun b hb => h.inside b ((hmem b).mp hb), fun j b hj => (hmem b).mpr (h.tab j b hj)⟩
      have : (s.order.filter (fun b => decide (b ≠ a)) ++ [a]).Perm s.order := (List.perm_ext_iff_of_nodup hnd h.nodup).mpr hmem
      simp only
      rw [this.length_eq, h.len]
  · cases hw

theorem needOpen_bound {r : FsIn} {s s' : FsSt} {i : Nat} {o : Option Nat} (h : FsBound s) (hw : needOpen r s i = .ok (o, s')) :
    FsBound s' := by
  unfold needOpen at hw
  rw [Out.bind_eq_ok] at hw
  obtain ⟨⟨a, s1⟩, hg, hw⟩ := hw
  have h1 := getOpen_bound h hg
  cases a with
  | some a => cases hw; exact h1
  | none =>
    simp only at hw
    rw [Out.bind_eq_ok] at hw
    obtain ⟨⟨pre, s2⟩, ho, hw⟩ := hw
    have h2 := openNew_bound h1 ho
    simp only at hw
    split at hw
    · cases hw; exact h2
    · rw [Out.bind_eq_ok] at hw
      obtain ⟨⟨a, s3⟩, hg', hw⟩ := hw
      have h3 := getOpen_bound h2 hg'
      cases a with
      | some a => cases hw; exact h3
      | none => cases hw

theorem readOpen_bound {s s' : FsSt} {a o n : Nat} {b : Bytes} (h : FsBound s) (hw : readOpen s a o n = .ok (b, s')) : FsBound s' := by
  unfold readOpen at hw
  dsimp only at hw
  generalize (if (s.slot a).offset ≠ o then o else (s.slot a).pos) = pos at hw
  split at hw
  · cases hw
  · cases hw; exact ⟨h.len, h.limit, h.nodup, h.inside, h.tab⟩

/-- The state in the outcome of a step. -/
def FsGot.st : FsGot → FsSt
  | .bytes _ s => s
  | .prelinked s => s

theorem fsContent_bound {r : FsIn} {s : FsSt} {cpio : CpioFile} {i o n : Nat} {g : FsGot} (h : FsBound s)
    (hw : fsContent r s cpio i o n = .ok g) : FsBound g.st := by
  unfold fsContent at hw
  rw [Out.bind_eq_ok] at hw
  obtain ⟨f, _, hw⟩ := hw
  split at hw
  · split at hw <;> (cases hw; exact h)
  · split at hw
    · unfold fsFile at hw
      rw [Out.bind_eq_ok] at hw
      obtain ⟨⟨a, s1⟩, hn, hw⟩ := hw
      have h1 := needOpen_bound h hn
      cases a with
      | none => cases hw; exact h1
      | some a =>
        simp only at hw
        rw [Out.bind_eq_ok] at hw
        obtain ⟨⟨b, s2⟩, hr, hw⟩ := hw
        cases hw
        exact readOpen_bound h1 hr
    · cases hw; exact h

theorem loadHeader_bound {r : FsIn} {s s' : FsSt} {k : Nat} (h : FsBound s) (hw : loadHeader r s k = .ok s') : FsBound s' := by
  unfold loadHeader at hw
  rw [Out.bind_eq_ok] at hw
  obtain ⟨cpio, _, hw⟩ := hw
  split at hw
  · cases hw; exact ⟨h.len, h.limit, h.nodup, h.inside, h.tab⟩
  · rw [Out.bind_eq_ok] at hw
    obtain ⟨f, _, hw⟩ := hw
    cases hw; exact ⟨h.len, h.limit, h.nodup, h.inside, h.tab⟩

theorem fsLoop_bound {r : FsIn} : ∀ (fuel : Nat) {s s' : FsSt} {k off len : Nat} {acc : Bytes} {o : FsRes}, FsBound s →
    fsLoop r fuel s k off len acc = .ok (o, s') → FsBound s' := by
  intro fuel
  induction fuel with
  | zero => intro s s' k off len acc o _ hw; cases hw
  | succ n ih =>
    intro s s' k off len acc o h hw
    rw [fsLoop] at hw
    split at hw
    · cases hw; exact h
    · rw [Out.bind_eq_ok] at hw
      obtain ⟨cpio, _, hw⟩ := hw
      split at hw
      · rw [Out.bind_eq_ok] at hw
        obtain ⟨b, _, hw⟩ := hw
        exact ih h hw
      · split at hw
        · cases hw; exact h
        · split at hw
          · rw [Out.bind_eq_ok] at hw
            obtain ⟨g, hg, hw⟩ := hw
            have h1 := fsContent_bound h hg
            cases g with
            | prelinked s1 => cases hw; exact ⟨h1.len, h1.limit, h1.nodup, h1.inside, h1.tab⟩
            | bytes b s1 => exact ih h1 hw
          · rw [Out.bind_eq_ok] at hw
            obtain ⟨s1, hl, hw⟩ := hw
            exact ih (loadHeader_bound h hl) hw

theorem fsBlock_bound {r : FsIn} {s s' : FsSt} {id : Nat} {o : FsRes} (h : FsBound s) (hw : fsBlock r s id = .ok (o, s')) : FsBound s' := by
  unfold fsBlock at hw
  simp only at hw
  rw [Out.bind_eq_ok] at hw
  obtain ⟨i, _, hw⟩ := hw
  rw [Out.bind_eq_ok] at hw
  obtain ⟨j, _, hw⟩ := hw
  rw [Out.bind_eq_ok] at hw
  obtain ⟨s1, he, hw⟩ := hw
  have h1 : FsBound s1 := by
    unfold enterEntry at he
    split at he
    · cases he; exact h
    · exact loadHeader_bound h he
  exact fsLoop_bound _ h1 hw

theorem plKeep_bound {J : FsSt → Prop} {c c' : Cache FsSt} {a id orig cnt : Nat} (h : CacheBound cfg J c)
    (hw : plKeep cfg c a id orig cnt = .ok c') : CacheBound cfg J c' ∧ Grows c c' := by
  unfold plKeep at hw
  split at hw
  · cases hw; exact ⟨h, fun _ hb => hb⟩
  · rw [Out.bind_eq_ok] at hw
    obtain ⟨m, _, hw⟩ := hw
    split at hw
    · exact pushBlock_bound h hw
    · cases hw; exact ⟨h, fun _ hb => hb⟩

theorem plRun_bound {J : FsSt → Prop} {r : FsIn} {a orig cnt : Nat} : ∀ (fuel : Nat) {c c' : Cache FsSt} {id : Nat} {s : PlSt}
    {saved : Option Bytes}, CacheBound cfg J c → Mine c a → plRun cfg r a orig cnt fuel c id s saved = .ok c' → CacheBound cfg J c' := by
  intro fuel
  induction fuel with
  | zero => intro c c' id s saved _ _ hw; cases hw
  | succ n ih =>
    intro c c' id s saved h ha hw
    rw [plRun, Out.bind_eq_ok] at hw
    obtain ⟨⟨b, s1⟩, _, hw⟩ := hw
    simp only at hw
    rw [Out.bind_eq_ok] at hw
    obtain ⟨c1, hk, hw⟩ := hw
    rw [Out.bind_eq_ok] at hw
    obtain ⟨stop, _, hw⟩ := hw
    have h1 := h.heap (a := a) ha.2 { c.heap a with type := .core, id := id, buf := b }
    obtain ⟨k1, k2⟩ := plKeep_bound h1 hk
    have ha1 : Mine c1 a := k2 a ha
    split at hw
    · split at hw
      · cases hw
      · split at hw
        · cases hw
        · cases hw; exact k1.heap ha1.2 _
    · exact ih k1 ha1 hw

theorem diskFiller_bound {r : FsIn} : FillBound cfg FsBound (diskFiller cfg r) := by
  intro c a id cnt c' h ha hw
  unfold diskFiller at hw
  rw [Out.bind_eq_ok] at hw
  obtain ⟨⟨o, s⟩, hb, hw⟩ := hw
  have h1 : CacheBound cfg FsBound { c with src := s } := { h with src := fsBlock_bound h.src hb }
  cases o with
  | block b => cases hw; exact h1.heap (a := a) ha.2 _
  | prelink k =>
    simp only [plBlock] at hw
    rw [Out.bind_eq_ok] at hw
    obtain ⟨⟨id0, st⟩, _, hw⟩ := hw
    simp only at hw
    rw [Out.bind_eq_ok] at hw
    obtain ⟨st1, _, hw⟩ := hw
    exact plRun_bound _ h1 ha hw

end Drpm
