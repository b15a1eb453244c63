import Verif.ApplySafe
import Verif.CacheFiles
/-!
# What the block cache does depends on the length of the blocks only

A run of the cache over any source is compared with a run over a source of blocks of zeros. This is
used for sources whose blocks depend on what was read before.
-/

namespace Drpm

variable {σ : Type}

/-- `x` fails, or does what `y` does, up to `R`. (If `y` is undefined, nothing is said.) -/
def Out.Follow (R : α → β → Prop) (x : Out α) (y : Out β) : Prop :=
  match y with
  | .ok b => (∃ e, x = .err e) ∨ ∃ a, x = .ok a ∧ R a b
  | .err _ => ∃ e, x = .err e
  | _ => True

theorem Out.Follow.bind {R : α → β → Prop} {S : γ → δ → Prop} {x : Out α} {y : Out β} {f : α → Out γ} {g : β → Out δ}
    (h : Out.Follow R x y) (hf : ∀ a b, R a b → Out.Follow S (f a) (g b)) : Out.Follow S (x >>= f) (y >>= g) := by
  cases y with
  | ok b =>
    rcases h with ⟨e, rfl⟩ | ⟨a, rfl, hr⟩
    · show Out.Follow S (.err e) (g b)
      cases g b with
      | ok d => exact Or.inl ⟨e, rfl⟩
      | err d => exact ⟨e, rfl⟩
      | ub => trivial
      | loop => trivial
    · exact hf a b hr
  | err e =>
    obtain ⟨e', rfl⟩ := h
    exact ⟨e', rfl⟩
  | ub => trivial
  | loop => trivial

theorem Out.Follow.ok {R : α → β → Prop} {a : α} {b : β} (h : R a b) : Out.Follow R (.ok a) (.ok b) := Or.inr ⟨a, rfl, h⟩

theorem Out.Follow.err {R : α → β → Prop} (e : Err) {y : Out β} : Out.Follow R (.err e) y := by
  cases y with
  | ok d => exact Or.inl ⟨e, rfl⟩
  | err d => exact ⟨e, rfl⟩
  | ub => trivial
  | loop => trivial

theorem Out.Follow.same (x : Out α) : Out.Follow (fun a b => a = b) x x := by
  cases x with
  | ok a => exact Or.inr ⟨a, rfl, rfl⟩
  | err e => exact ⟨e, rfl⟩
  | ub => trivial
  | loop => trivial

theorem Out.Follow.ite {R : α → β → Prop} {c : Prop} [Decidable c] {x x' : Out α} {y y' : Out β}
    (h1 : c → Out.Follow R x y) (h2 : ¬ c → Out.Follow R x' y') :
    Out.Follow R (if c then x else x') (if c then y else y') := by
  by_cases h : c
  · rw [if_pos h, if_pos h]; exact h1 h
  · rw [if_neg h, if_neg h]; exact h2 h

theorem Out.Follow.good {R : α → β → Prop} {P : β → Prop} {x : Out α} {y : Out β} (h : Out.Follow R x y) (hy : y.Good P) :
    x.Good (fun a => ∃ b, P b ∧ R a b) := by
  cases y with
  | ok b =>
    rcases h with ⟨e, rfl⟩ | ⟨a, rfl, hr⟩
    · trivial
    · exact ⟨b, hy, hr⟩
  | err e =>
    obtain ⟨e', rfl⟩ := h
    trivial
  | ub => exact absurd hy id
  | loop => exact absurd hy id

/-- A block without its contents. -/
def Blk.erase (b : Blk) : Blk := { b with buf := zeros b.buf.length }

/-- A cache without the contents of its blocks and without its source. -/
def Cache.erase (c : Cache σ) : Cache Unit :=
  { heap := fun a => (c.heap a).erase, next := c.next, free := c.free, core := c.core, coreCount := c.coreCount,
    pages := c.pages, pageCount := c.pageCount, pageFile := fun o => zeros (c.pageFile o).length, table := c.table,
    last := c.last, cleanup := c.cleanup, rpmId := c.rpmId, src := () }

theorem erase_upd (h : Nat → Blk) (a : Nat) (v : Blk) :
    (fun x => (upd h a v x).erase) = upd (fun x => (h x).erase) a v.erase := by
  funext x
  unfold upd
  split <;> rfl

theorem zeros_upd (h : Nat → Bytes) (a : Nat) (v : Bytes) :
    (fun x => zeros (upd h a v x).length) = upd (fun x => zeros (h x).length) a (zeros v.length) := by
  funext x
  unfold upd
  split <;> rfl

/-- Two caches that differ in the contents of the blocks and the source only. -/
def CacheRel (I : σ → Prop) (c : Cache σ) (c' : Cache Unit) : Prop := I c.src ∧ c' = c.erase

/-- The same with an address. -/
def AddrRel (I : σ → Prop) (x : Nat × Cache σ) (x' : Nat × Cache Unit) : Prop := x'.1 = x.1 ∧ CacheRel I x.2 x'.2

variable {I : σ → Prop}

theorem tabWr_erase {cfg : CacheCfg} {c : Cache σ} (h : I c.src) (id : Nat) (v : Option Nat) :
    Out.Follow (CacheRel I) (tabWr cfg c id v) (tabWr cfg c.erase id v) :=
  Out.Follow.ite (fun _ => Out.Follow.ok ⟨h, rfl⟩) (fun _ => trivial)

theorem tabRd_erase {cfg : CacheCfg} {c : Cache σ} (id : Nat) :
    Out.Follow (fun a b => a = b) (tabRd cfg c id) (tabRd cfg c.erase id) := Out.Follow.same _

theorem newCore_erase (c : Cache σ) : newCore c.erase = ((newCore c).1, (newCore c).2.erase) := by
  unfold newCore Cache.erase
  simp only [erase_upd]
  rfl

theorem getFree_erase (c : Cache σ) : getFree c.erase = (getFree c).map (fun x => (x.1, x.2.erase)) := by
  unfold getFree
  show (match c.free with | [] => none | a :: rest => _) = _
  cases c.free <;> rfl

theorem findPage_erase (c : Cache σ) (id : Nat) : findPage c.erase id = findPage c id := rfl

theorem findOldPage_erase (cfg : CacheCfg) (c : Cache σ) (cnt : Nat) : ∀ l, findOldPage cfg c.erase cnt l = findOldPage cfg c cnt l := by
  intro l
  induction l with
  | nil => rfl
  | cons p ps ih => unfold findOldPage; rw [ih]; rfl

theorem takePage_erase (c : Cache σ) (o : Option Nat) : takePage c.erase o = ((takePage c o).1, (takePage c o).2.erase) := by
  cases o with
  | some p => rfl
  | none =>
    unfold takePage Cache.erase
    simp only [erase_upd]
    rfl

theorem takePage_src (c : Cache σ) (o : Option Nat) : (takePage c o).2.src = c.src := by cases o <;> rfl

theorem writePage_erase {cfg : CacheCfg} {c : Cache σ} (h : I c.src) (a cnt : Nat) :
    Out.Follow (CacheRel I) (writePage cfg c a cnt) (writePage cfg c.erase a cnt) := by
  unfold writePage
  refine Out.Follow.ite (fun _ => Out.Follow.err _) (fun _ => ?_)
  show Out.Follow _ _ (match findPage c (c.heap a).id with | some p => _ | none => _)
  cases findPage c (c.heap a).id with
  | some p => exact tabWr_erase h _ _
  | none =>
    simp only
    rw [show c.erase.pages = c.pages from rfl, findOldPage_erase]
    refine (Out.Follow.same _).bind ?_
    rintro o _ rfl
    simp only [takePage_erase]
    refine Eq.mp (congrArg (Out.Follow _ _) (congrArg (fun z => tabWr cfg z _ _) ?_)) (tabWr_erase (c := { (takePage c o).2 with
      heap := upd (takePage c o).2.heap (takePage c o).1 { (takePage c o).2.heap (takePage c o).1 with id := (c.heap a).id },
      pageFile := upd (takePage c o).2.pageFile ((takePage c o).2.heap (takePage c o).1).off (c.heap a).buf }) (by
        simp only [takePage_src]; exact h) _ _)
    unfold Cache.erase
    simp only [erase_upd, zeros_upd]
    rfl

theorem copyBlock_erase {cfg : CacheCfg} {c : Cache σ} (h : I c.src) (a n : Nat) :
    Out.Follow (CacheRel I) (copyBlock cfg c a n) (copyBlock cfg c.erase a n) := by
  unfold copyBlock
  refine Eq.mp (congrArg (Out.Follow _ _) (congrArg (fun z => tabWr cfg z _ _) ?_)) (tabWr_erase (c := { c with
    heap := upd c.heap n { c.heap n with id := (c.heap a).id, type := (c.heap a).type, buf := (c.heap a).buf } }) h _ _)
  unfold Cache.erase
  simp only [erase_upd]
  rfl

theorem readPage_erase {cfg : CacheCfg} {c : Cache σ} (h : I c.src) (dst src : Nat) :
    Out.Follow (CacheRel I) (readPage cfg c dst src) (readPage cfg c.erase dst src) := by
  unfold readPage
  refine Out.Follow.ite (fun _ => Out.Follow.err _) (fun _ => ?_)
  refine Eq.mp (congrArg (Out.Follow _ _) (congrArg (fun z => tabWr cfg z _ _) ?_)) (tabWr_erase (c := { c with
    heap := upd c.heap dst { c.heap dst with id := (c.heap src).id, type := .core, buf := c.pageFile (c.heap src).off } }) h _ _)
  unfold Cache.erase
  simp only [erase_upd]
  rfl

theorem freeBlk_erase (c : Cache σ) (a : Nat) :
    (fun x => (upd c.heap a { c.heap a with type := .free } x).erase) =
      upd c.erase.heap a { c.erase.heap a with type := .free } := by
  rw [erase_upd]; rfl

theorem cleanScan_erase {cfg : CacheCfg} {c : Cache σ} (h : I c.src) (id cnt : Nat) : ∀ l seen,
    Out.Follow (CacheRel I) (cleanScan cfg c id cnt seen l) (cleanScan cfg c.erase id cnt seen l) := by
  intro l
  induction l with
  | nil => intro seen; exact Out.Follow.ok ⟨h, rfl⟩
  | cons a rest ih =>
    intro seen
    unfold cleanScan
    refine (Out.Follow.same (maxRd cfg (c.heap a).id)).bind ?_
    rintro m _ rfl
    refine Out.Follow.ite (fun _ => ?_) (fun _ => ih _)
    refine Eq.mp (congrArg (Out.Follow _ _) (congrArg (fun z => tabWr cfg z _ _) ?_)) (tabWr_erase (c := { c with
      core := seen ++ rest, free := a :: c.free, heap := upd c.heap a { c.heap a with type := .free } }) h _ _)
    unfold Cache.erase
    simp only [erase_upd]
    rfl

theorem saveEvicted_erase {cfg : CacheCfg} {c : Cache σ} (h : I c.src) (a cnt : Nat) :
    Out.Follow (CacheRel I) (saveEvicted cfg c a cnt) (saveEvicted cfg c.erase a cnt) := by
  unfold saveEvicted
  exact Out.Follow.ite (fun _ => writePage_erase h _ _) (fun _ => tabWr_erase h _ _)

theorem evict_erase {cfg : CacheCfg} {c : Cache σ} (h : I c.src) (cnt : Nat) :
    Out.Follow (AddrRel I) (evict cfg c cnt) (evict cfg c.erase cnt) := by
  unfold evict
  show Out.Follow _ _ (match c.core.getLast? with | none => _ | some a => _)
  cases c.core.getLast? with
  | none => trivial
  | some a =>
    refine (saveEvicted_erase (c := { c with core := a :: c.core.dropLast }) h a cnt).bind ?_
    rintro c1 _ ⟨h1, rfl⟩
    refine Out.Follow.ok ⟨rfl, h1, ?_⟩
    unfold Cache.erase
    simp only [erase_upd]
    rfl

theorem getFree_src {c : Cache σ} {x : Nat × Cache σ} (h : getFree c = some x) : x.2.src = c.src := by
  unfold getFree at h
  cases hf : c.free with
  | nil => rw [hf] at h; cases h
  | cons a rest => rw [hf] at h; cases h; rfl

theorem grabBlock_erase {cfg : CacheCfg} {c : Cache σ} (h : I c.src) (id cnt : Nat) :
    Out.Follow (AddrRel I) (grabBlock cfg c id cnt) (grabBlock cfg c.erase id cnt) := by
  unfold grabBlock
  rw [getFree_erase]
  cases hg : getFree c with
  | some x => exact Out.Follow.ok ⟨rfl, by rw [getFree_src hg]; exact h, rfl⟩
  | none =>
    simp only [Option.map_none]
    refine Out.Follow.ite (fun _ => ?_) (fun _ => ?_)
    · refine Out.Follow.ok ?_
      have e := newCore_erase { c with cleanup := (c.cleanup + 1) % 2^64 }
      exact ⟨congrArg Prod.fst e, h, congrArg Prod.snd e⟩
    · refine (cleanScan_erase (c := { c with cleanup := if c.coreCount < cfg.maxCore then (c.cleanup + 1) % 2^64 else c.cleanup })
        h id cnt c.core []).bind ?_
      rintro c1 _ ⟨h1, rfl⟩
      rw [getFree_erase]
      cases hg1 : getFree c1 with
      | some x => exact Out.Follow.ok ⟨rfl, by rw [getFree_src hg1]; exact h1, rfl⟩
      | none =>
        simp only [Option.map_none]
        refine Out.Follow.ite (fun _ => ?_) (fun _ => evict_erase h1 cnt)
        have e := newCore_erase c1
        exact Out.Follow.ok ⟨congrArg Prod.fst e, h1, congrArg Prod.snd e⟩

theorem pushBlock_erase {cfg : CacheCfg} {c : Cache σ} (h : I c.src) (a cnt : Nat) :
    Out.Follow (CacheRel I) (pushBlock cfg c a cnt) (pushBlock cfg c.erase a cnt) := by
  unfold pushBlock
  rw [getFree_erase]
  cases hg : getFree c with
  | some x => exact copyBlock_erase (by rw [getFree_src hg]; exact h) _ _
  | none =>
    simp only [Option.map_none]
    refine Out.Follow.ite (fun _ => ?_) (fun _ => Out.Follow.ite (fun _ => writePage_erase h _ _) (fun _ => tabWr_erase h _ _))
    rw [newCore_erase]
    exact copyBlock_erase (c := (newCore c).2) h _ _

end Drpm
