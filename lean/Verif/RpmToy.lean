import Verif.RpmFileSpec
import Verif.UtilsLemmas
import Verif.FormatLemmas
import Verif.AcceptLemmas
/-!
# A small rpmlib

An instance of the laws of `Verif/RpmFileSpec.lean`, which shows that they can be met; it is used for
the examples only. A header is a list of tags in ascending order, and the tag of its region.
-/

namespace Drpm
namespace Toy

/-! ## Numbers, strings and lists as bytes -/

def num : Bytes → Option (Nat × Bytes)
  | b0 :: b1 :: b2 :: b3 :: r => some (parseBe32 b0 b1 b2 b3, r)
  | _ => none

theorem num_create (n : Nat) (h : n < 2^32) (r : Bytes) : num (createBe32 n ++ r) = some (n, r) := by
  have := be32At_createBe32 n h r
  simp only [createBe32, List.cons_append, List.nil_append, be32At, Out.ok.injEq] at this
  simp only [createBe32, List.cons_append, List.nil_append, num, this]

def encB (b : Bytes) : Bytes := createBe32 b.length ++ b

def decB (s : Bytes) : Option (Bytes × Bytes) :=
  match num s with
  | none => none
  | some (n, r) => if n ≤ r.length then some (r.take n, r.drop n) else none

theorem decB_enc (b : Bytes) (h : b.length < 2^32) (r : Bytes) : decB (encB b ++ r) = some (b, r) := by
  unfold decB encB
  rw [List.append_assoc, num_create _ h]
  simp

def encL {α : Type} (f : α → Bytes) (l : List α) : Bytes := createBe32 l.length ++ (l.map f).flatten

def decMany {α : Type} (d : Bytes → Option (α × Bytes)) : Nat → Bytes → Option (List α × Bytes)
  | 0, s => some ([], s)
  | n + 1, s =>
    match d s with
    | none => none
    | some (x, s) =>
      match decMany d n s with
      | none => none
      | some (xs, s) => some (x :: xs, s)

theorem decMany_enc {α : Type} (f : α → Bytes) (d : Bytes → Option (α × Bytes)) (l : List α)
    (h : ∀ x ∈ l, ∀ r, d (f x ++ r) = some (x, r)) (r : Bytes) :
    decMany d l.length ((l.map f).flatten ++ r) = some (l, r) := by
  induction l with
  | nil => rfl
  | cons x l ih =>
    rw [List.length_cons, List.map_cons, List.flatten_cons, List.append_assoc, decMany, h x List.mem_cons_self]
    simp only
    rw [ih (fun y hy => h y (List.mem_cons_of_mem _ hy))]

def decL {α : Type} (d : Bytes → Option (α × Bytes)) (s : Bytes) : Option (List α × Bytes) :=
  match num s with
  | none => none
  | some (n, r) => decMany d n r

theorem decL_enc {α : Type} (f : α → Bytes) (d : Bytes → Option (α × Bytes)) (l : List α) (hl : l.length < 2^32)
    (h : ∀ x ∈ l, ∀ r, d (f x ++ r) = some (x, r)) (r : Bytes) : decL d (encL f l ++ r) = some (l, r) := by
  unfold decL encL
  rw [List.append_assoc, num_create _ hl]
  exact decMany_enc f d l h r

/-! ## Tags -/

/-- Data that can be stored. -/
def Ok : TagData → Prop
  | .str s => s.length < 2^32
  | .strs l => l.length < 2^32 ∧ ∀ s ∈ l, s.length < 2^32
  | .u16 l => l.length < 2^32 ∧ ∀ n ∈ l, n < 2^32
  | .u32 l => l.length < 2^32 ∧ ∀ n ∈ l, n < 2^32
  | .bin b => b.length < 2^32

instance (d : TagData) : Decidable (Ok d) := by
  cases d <;> unfold Ok <;> infer_instance

def encD : TagData → Bytes
  | .str s => 0 :: encB s
  | .strs l => 1 :: encL encB l
  | .u16 l => 2 :: encL createBe32 l
  | .u32 l => 3 :: encL createBe32 l
  | .bin b => 4 :: encB b

def decD : Bytes → Option (TagData × Bytes)
  | 0 :: s => (decB s).map (fun x => (.str x.1, x.2))
  | 1 :: s => (decL decB s).map (fun x => (.strs x.1, x.2))
  | 2 :: s => (decL num s).map (fun x => (.u16 x.1, x.2))
  | 3 :: s => (decL num s).map (fun x => (.u32 x.1, x.2))
  | 4 :: s => (decB s).map (fun x => (.bin x.1, x.2))
  | _ => none

theorem decD_enc (d : TagData) (h : Ok d) (r : Bytes) : decD (encD d ++ r) = some (d, r) := by
  cases d with
  | str s => simp only [encD, List.cons_append, decD]; rw [decB_enc s h]; rfl
  | strs l =>
    simp only [encD, List.cons_append, decD]
    rw [decL_enc encB decB l h.1 (fun x hx r => decB_enc x (h.2 x hx) r)]; rfl
  | u16 l =>
    simp only [encD, List.cons_append, decD]
    rw [decL_enc createBe32 num l h.1 (fun x hx r => num_create x (h.2 x hx) r)]; rfl
  | u32 l =>
    simp only [encD, List.cons_append, decD]
    rw [decL_enc createBe32 num l h.1 (fun x hx r => num_create x (h.2 x hx) r)]; rfl
  | bin b => simp only [encD, List.cons_append, decD]; rw [decB_enc b h]; rfl

def encE (e : Nat × TagData) : Bytes := createBe32 e.1 ++ encD e.2

def decE (s : Bytes) : Option ((Nat × TagData) × Bytes) :=
  match num s with
  | none => none
  | some (t, s) => (decD s).map (fun x => ((t, x.1), x.2))

theorem decE_enc (e : Nat × TagData) (h : Ok e.2) (ht : e.1 < 2^32) (r : Bytes) : decE (encE e ++ r) = some (e, r) := by
  unfold decE encE
  rw [List.append_assoc, num_create _ ht]
  simp only
  rw [decD_enc _ h]
  rfl

/-! ## Headers -/

instance (t : Nat) : Decidable (IsRegion t) := by unfold IsRegion; infer_instance

/-- The tags of a header: in ascending order, no regions, and what can be stored. -/
def Good (l : List (Nat × TagData)) : Prop :=
  l.Pairwise (fun a b => a.1 < b.1) ∧ ∀ e ∈ l, ¬ IsRegion e.1 ∧ e.1 < 2^32 ∧ Ok e.2

instance (l : List (Nat × TagData)) : Decidable (Good l) := by unfold Good; infer_instance

/-- A header. `region` is 0 if there is none. -/
structure Hdr where
  tags : List (Nat × TagData)
  region : Nat
  good : Good tags

theorem Hdr.ext {a b : Hdr} (h : a.tags = b.tags) (h' : a.region = b.region) : a = b := by
  obtain ⟨t, r, g⟩ := a
  obtain ⟨t', r', g'⟩ := b
  simp only at h h'
  subst h h'
  rfl

def lookup (t : Nat) : List (Nat × TagData) → Option TagData
  | [] => none
  | (t', d) :: l => if t' = t then some d else lookup t l

theorem lookup_mem {t : Nat} {d : TagData} : ∀ {l : List (Nat × TagData)}, l.Pairwise (fun a b => a.1 < b.1) →
    (lookup t l = some d ↔ (t, d) ∈ l) := by
  intro l
  induction l with
  | nil => intro _; simp [lookup]
  | cons e l ih =>
    intro h
    obtain ⟨t', d'⟩ := e
    rw [List.pairwise_cons] at h
    rw [lookup, List.mem_cons]
    by_cases ht : t' = t
    · subst ht
      rw [if_pos rfl]
      constructor
      · intro e
        left
        rw [Option.some.inj e]
      · intro e
        rcases e with e | e
        · rw [(Prod.mk.inj e).2]
        · exact absurd (h.1 _ e) (Nat.lt_irrefl _)
    · rw [if_neg ht, ih h.2]
      constructor
      · exact Or.inr
      · rintro (e | e)
        · exact absurd (Prod.mk.inj e).1.symm ht
        · exact e

theorem lookup_lt {t : Nat} : ∀ {l : List (Nat × TagData)}, (∀ e ∈ l, t < e.1) → lookup t l = none := by
  intro l
  induction l with
  | nil => intro _; rfl
  | cons e l ih =>
    intro h
    obtain ⟨t', d⟩ := e
    have := h _ List.mem_cons_self
    simp only at this
    rw [lookup, if_neg (by omega), ih (fun e he => h e (List.mem_cons_of_mem _ he))]

/-- Two lists of tags with the same data are the same. -/
theorem lookup_ext : ∀ (l l' : List (Nat × TagData)), l.Pairwise (fun a b => a.1 < b.1) →
    l'.Pairwise (fun a b => a.1 < b.1) → (∀ t, lookup t l = lookup t l') → l = l' := by
  intro l
  induction l with
  | nil =>
    intro l' _ _ h
    cases l' with
    | nil => rfl
    | cons e l' =>
      obtain ⟨t, d⟩ := e
      have := h t
      rw [lookup, lookup, if_pos rfl] at this
      cases this
  | cons e l ih =>
    intro l' h1 h2 h
    obtain ⟨t, d⟩ := e
    cases l' with
    | nil =>
      have := h t
      rw [lookup, lookup, if_pos rfl] at this
      cases this
    | cons e' l' =>
      obtain ⟨t', d'⟩ := e'
      rw [List.pairwise_cons] at h1 h2
      have a := h t
      have b := h t'
      have c : t = t' := by
        rcases Nat.lt_trichotomy t t' with hlt | heq | hgt
        · rw [lookup, if_pos rfl, lookup, if_neg (by omega),
            lookup_lt (fun e he => Nat.lt_trans hlt (h2.1 e he))] at a
          cases a
        · exact heq
        · rw [lookup, if_neg (by omega), lookup_lt (fun e he => Nat.lt_trans hgt (h1.1 e he)), lookup, if_pos rfl] at b
          cases b
      subst c
      rw [lookup, if_pos rfl, lookup, if_pos rfl] at a
      cases Option.some.inj a
      rw [ih l' h1.2 h2.2 (fun s => ?_)]
      by_cases hs : s = t
      · subst hs
        rw [lookup_lt h1.1, lookup_lt h2.1]
      · have := h s
        rw [lookup, if_neg (Ne.symm hs), lookup, if_neg (Ne.symm hs)] at this
        exact this

def insert (t : Nat) (d : TagData) : List (Nat × TagData) → List (Nat × TagData)
  | [] => [(t, d)]
  | (t', d') :: l => if t < t' then (t, d) :: (t', d') :: l else (t', d') :: insert t d l

theorem insert_mem {t : Nat} {d : TagData} {e : Nat × TagData} : ∀ {l : List (Nat × TagData)},
    e ∈ insert t d l ↔ e = (t, d) ∨ e ∈ l := by
  intro l
  induction l with
  | nil => simp [insert]
  | cons x l ih =>
    obtain ⟨t', d'⟩ := x
    rw [insert]
    split
    · simp
    · rw [List.mem_cons, ih, List.mem_cons]
      constructor
      · rintro (h | h | h)
        · exact Or.inr (Or.inl h)
        · exact Or.inl h
        · exact Or.inr (Or.inr h)
      · rintro (h | h | h)
        · exact Or.inr (Or.inl h)
        · exact Or.inl h
        · exact Or.inr (Or.inr h)

theorem insert_sorted {t : Nat} {d : TagData} : ∀ {l : List (Nat × TagData)}, l.Pairwise (fun a b => a.1 < b.1) →
    lookup t l = none → (insert t d l).Pairwise (fun a b => a.1 < b.1) := by
  intro l
  induction l with
  | nil => intro _ _; simp [insert]
  | cons x l ih =>
    intro h hn
    obtain ⟨t', d'⟩ := x
    rw [List.pairwise_cons] at h
    rw [lookup] at hn
    have hne : t' ≠ t := fun e => by rw [if_pos e] at hn; cases hn
    rw [if_neg hne] at hn
    rw [insert]
    split
    · rename_i hlt
      refine List.pairwise_cons.2 ⟨fun e he => ?_, List.pairwise_cons.2 h⟩
      rcases List.mem_cons.1 he with rfl | he
      · exact hlt
      · exact Nat.lt_trans hlt (h.1 e he)
    · refine List.pairwise_cons.2 ⟨fun e he => ?_, ih h.2 hn⟩
      rcases insert_mem.1 he with rfl | he
      · show t' < t
        omega
      · exact h.1 e he

theorem insert_good {t : Nat} {d : TagData} {l : List (Nat × TagData)} (h : Good l) (hn : lookup t l = none)
    (hr : ¬ IsRegion t) (ht : t < 2^32) (hd : Ok d) : Good (insert t d l) := by
  refine ⟨insert_sorted h.1 hn, fun e he => ?_⟩
  rcases insert_mem.1 he with rfl | he
  · exact ⟨hr, ht, hd⟩
  · exact h.2 e he

theorem lookup_insert {t : Nat} {d : TagData} {l : List (Nat × TagData)} (h : l.Pairwise (fun a b => a.1 < b.1))
    (hn : lookup t l = none) (t' : Nat) : lookup t' (insert t d l) = if t' = t then some d else lookup t' l := by
  have key : ∀ o : TagData, lookup t' (insert t d l) = some o ↔ (if t' = t then some d else lookup t' l) = some o := by
    intro o
    rw [lookup_mem (insert_sorted h hn), insert_mem]
    by_cases e : t' = t
    · subst e
      rw [if_pos rfl, ← lookup_mem h, hn]
      simp only [Prod.mk.injEq, true_and, reduceCtorEq, or_false, Option.some.injEq]
      exact eq_comm
    · rw [if_neg e, lookup_mem h]
      simp [e]
  rcases h1 : lookup t' (insert t d l) with _ | o
  · rcases h2 : (if t' = t then some d else lookup t' l) with _ | o
    · rfl
    · rw [(key o).2 h2] at h1
      cases h1
  · exact ((key o).1 h1).symm

theorem lookup_filter {t : Nat} {l : List (Nat × TagData)} (t' : Nat) :
    lookup t' (l.filter (fun e => e.1 ≠ t)) = if t' = t then none else lookup t' l := by
  induction l with
  | nil => simp [lookup]
  | cons x l ih =>
    obtain ⟨s, d⟩ := x
    rw [List.filter_cons]
    by_cases hs : s = t
    · subst hs
      rw [if_neg (by simp), ih, lookup]
      by_cases e : t' = s
      · rw [if_pos e, if_pos e]
      · rw [if_neg e, if_neg e, if_neg (Ne.symm e)]
    · rw [if_pos (by simpa using hs), lookup, lookup, ih]
      by_cases e : s = t'
      · subst e
        rw [if_pos rfl, if_pos rfl, if_neg hs]
      · rw [if_neg e, if_neg e]

/-! ## On disk -/

def data (h : Hdr) : Bytes := createBe32 h.region ++ encL encE h.tags

def index (h : Hdr) : Bytes := (h.tags.map (fun e => createBe32 e.1 ++ zeros 12)).flatten

def blob (h : Hdr) : Bytes := createBe32 h.tags.length ++ createBe32 (data h).length ++ index h ++ data h

def fits (h : Hdr) : Bool := (blob h).length < 2^30 && h.region < 2^32

def unblob (s : Bytes) : Option (Hdr × Nat) :=
  match num s with
  | none => none
  | some (il, s) =>
    match num s with
    | none => none
    | some (dl, s) =>
      if s.length < 16 * il + dl then none else
      match num (s.drop (16 * il)) with
      | none => none
      | some (region, s) =>
        match decL decE s with
        | none => none
        | some (tags, _) => if h : Good tags then some (⟨tags, region, h⟩, 8 + 16 * il + dl) else none

theorem index_length (h : Hdr) : (index h).length = 16 * h.tags.length := by
  unfold index
  generalize h.tags = l
  induction l with
  | nil => rfl
  | cons e l ih =>
    rw [List.map_cons, List.flatten_cons, List.length_append, ih, List.length_append, createBe32_length, List.length_cons]
    simp only [zeros, List.length_replicate]
    omega

theorem blob_length (h : Hdr) : (blob h).length = 8 + 16 * h.tags.length + (data h).length := by
  unfold blob
  rw [List.length_append, List.length_append, List.length_append, index_length, createBe32_length, createBe32_length]

theorem unblob_blob (h : Hdr) (hf : fits h = true) (r : Bytes) : unblob (blob h ++ r) = some (h, (blob h).length) := by
  unfold fits at hf
  rw [Bool.and_eq_true, decide_eq_true_iff, decide_eq_true_iff] at hf
  have hl := blob_length h
  have e1 : blob h ++ r = createBe32 h.tags.length ++ (createBe32 (data h).length ++ (index h ++ (data h ++ r))) := by
    simp [blob, List.append_assoc]
  have e2 : (index h ++ (data h ++ r)).drop (16 * h.tags.length) = createBe32 h.region ++ (encL encE h.tags ++ r) := by
    rw [List.drop_append_of_le_length (by rw [index_length]; omega), List.drop_of_length_le (by rw [index_length]; omega),
      List.nil_append]
    simp [data, List.append_assoc]
  unfold unblob
  rw [e1, num_create _ (by omega)]
  simp only
  rw [num_create _ (by omega)]
  simp only
  rw [if_neg (by rw [List.length_append, List.length_append, index_length]; omega), e2, num_create _ hf.2]
  simp only
  rw [decL_enc encE decE h.tags (by omega) (fun e he r => decE_enc e (h.good.2 e he).2.2 (h.good.2 e he).2.1 r)]
  simp only
  rw [dif_pos h.good]
  simp only [Option.some.injEq, Prod.mk.injEq, true_and]
  exact hl.symm

/-! ## The library -/

def get (h : Hdr) (t : Nat) : Option TagData :=
  if IsRegion t then (if h.region = t then some (.bin (blob h)) else none) else lookup t h.tags

def put (h : Hdr) (t : Nat) (d : TagData) : Option Hdr :=
  if c : lookup t h.tags = none ∧ ¬ IsRegion t ∧ t < 2^32 ∧ Ok d then
    some ⟨insert t d h.tags, h.region, insert_good h.good c.1 c.2.1 c.2.2.1 c.2.2.2⟩
  else none

def del (h : Hdr) (t : Nat) : Option Hdr :=
  if (lookup t h.tags).isSome then
    some ⟨h.tags.filter (fun e => e.1 ≠ t), h.region,
      ⟨h.good.1.filter _, fun e he => h.good.2 e (List.mem_filter.1 he).1⟩⟩
  else none

def reload (h : Hdr) (R : Nat) : Option Hdr :=
  if fits { h with region := R } then some { h with region := R } else none

/-- The library. The name of a package is its tag 1000, the extension tags are stored like others. -/
def lib : Rpmlib Hdr :=
  { read := fun s => if s.take 8 = headerMagic then (unblob (s.drop 8)).map (fun x => (x.1, 8 + x.2)) else none
    exp := fun h => if fits h then some (blob h) else none
    imp := fun s => (unblob s).map (·.1)
    size := fun h => 8 + (blob h).length
    new := ⟨[], 0, ⟨List.Pairwise.nil, fun _ he => absurd he List.not_mem_nil⟩⟩
    entries := fun h => h.tags
    get := get
    getExt := get
    getStr := fun h t => match get h t with
      | some (.str s) => some s
      | _ => none
    nevr := fun h => match lookup 1000 h.tags with
      | some (.str s) => some s
      | _ => none
    put := put
    del := del
    reload := reload
    raw := fun _ => zeros 16 }

theorem lib_get (h : Hdr) (t : Nat) (ht : ¬ IsRegion t) : lib.get h t = lookup t h.tags := by
  show get h t = _
  unfold get
  rw [if_neg ht]

theorem word_create (a : Bytes) (n : Nat) (r : Bytes) (h : n < 2^32) : word (a ++ (createBe32 n ++ r)) a.length = n := by
  have e : slice (a ++ (createBe32 n ++ r)) a.length 4 = createBe32 n := by
    unfold slice
    rw [List.drop_append_of_le_length (Nat.le_refl _), List.drop_of_length_le (Nat.le_refl _), List.nil_append,
      List.take_append_of_le_length (by rw [createBe32_length]; exact Nat.le_refl _),
      List.take_of_length_le (by rw [createBe32_length]; exact Nat.le_refl _)]
  have h1 := be32At_word (createBe32 n) rfl
  have h2 := be32At_createBe32 n h []
  rw [List.append_nil, h1.1] at h2
  unfold word
  rw [e]
  exact Out.ok.inj h2

theorem blob_word_il (h : Hdr) (hl : h.tags.length < 2^32) : word (blob h) 0 = h.tags.length := by
  have e1 : blob h = [] ++ (createBe32 h.tags.length ++ (createBe32 (data h).length ++ (index h ++ data h))) := by
    simp [blob, List.append_assoc]
  rw [e1]
  exact word_create [] _ _ hl

theorem blob_word_dl (h : Hdr) (hl : (data h).length < 2^32) : word (blob h) 4 = (data h).length := by
  have e1 : blob h = createBe32 h.tags.length ++ (createBe32 (data h).length ++ (index h ++ data h)) := by
    simp [blob, List.append_assoc]
  rw [e1]
  exact word_create (createBe32 h.tags.length) _ _ hl

theorem fits_iff (h : Hdr) : fits h = true ↔ (blob h).length < 2^30 ∧ h.region < 2^32 := by
  unfold fits
  rw [Bool.and_eq_true, decide_eq_true_iff, decide_eq_true_iff]

theorem onDisk (h : Hdr) (hf : fits h = true) : OnDisk lib h (blob h) := by
  have hf' := (fits_iff h).1 hf
  have hl := blob_length h
  refine ⟨fun rest => ?_, fun rest => ?_, ?_, rfl, ?_, hf'.1⟩
  · have e : (headerMagic ++ blob h ++ rest).drop 8 = blob h ++ rest := rfl
    have e2 : (headerMagic ++ blob h ++ rest).take 8 = headerMagic := rfl
    simp only [lib]
    rw [if_pos e2, e, unblob_blob h hf]
    rfl
  · simp only [lib]
    rw [unblob_blob h hf]
    rfl
  · simp only [lib]
    rw [if_pos hf]
  · rw [blob_word_il h (by omega), blob_word_dl h (by omega)]
    exact hl

theorem hasIndex (h : Hdr) (hf : fits h = true) (t : Nat) (d : TagData) (ht : (t, d) ∈ h.tags) : HasIndex (blob h) t := by
  have hf' := (fits_iff h).1 hf
  have hl := blob_length h
  obtain ⟨i, hi, he⟩ := List.mem_iff_getElem.1 ht
  refine ⟨i, by rw [blob_word_il h (by omega)]; exact hi, ?_⟩
  have key : ∀ (l : List (Nat × TagData)) (i : Nat) (hi : i < l.length), ∃ r,
      (l.map (fun e => createBe32 e.1 ++ zeros 12)).flatten =
        ((l.take i).map (fun e => createBe32 e.1 ++ zeros 12)).flatten ++ (createBe32 l[i].1 ++ r) := by
    intro l
    induction l with
    | nil => intro i hi; exact absurd hi (Nat.not_lt_zero _)
    | cons x l ih =>
      intro i hi
      cases i with
      | zero => exact ⟨zeros 12 ++ (l.map (fun e => createBe32 e.1 ++ zeros 12)).flatten, by simp⟩
      | succ i =>
        obtain ⟨r, hr⟩ := ih i (by simpa using hi)
        refine ⟨r, ?_⟩
        rw [List.map_cons, List.flatten_cons, hr]
        simp
  obtain ⟨r, hr⟩ := key h.tags i hi
  have hlen : (((h.tags.take i).map (fun e => createBe32 e.1 ++ zeros 12)).flatten).length = 16 * i := by
    have : ∀ l : List (Nat × TagData), ((l.map (fun e => createBe32 e.1 ++ zeros 12)).flatten).length = 16 * l.length := by
      intro l
      induction l with
      | nil => rfl
      | cons x l ih =>
        rw [List.map_cons, List.flatten_cons, List.length_append, ih, List.length_append, createBe32_length, List.length_cons]
        simp only [zeros, List.length_replicate]
        omega
    rw [this, List.length_take]
    omega
  rw [he] at hr
  have e1 : blob h = (createBe32 h.tags.length ++ createBe32 (data h).length ++
      ((h.tags.take i).map (fun e => createBe32 e.1 ++ zeros 12)).flatten) ++ (createBe32 t ++ (r ++ data h)) := by
    unfold blob index
    rw [hr]
    simp [List.append_assoc]
  have e2 : (createBe32 h.tags.length ++ createBe32 (data h).length ++
      ((h.tags.take i).map (fun e => createBe32 e.1 ++ zeros 12)).flatten).length = 8 + 16 * i := by
    rw [List.length_append, List.length_append, hlen, createBe32_length, createBe32_length]
  rw [e1, ← e2]
  exact word_create _ _ _ (h.good.2 _ ht).2.1

theorem get_region (h : Hdr) (R : Nat) (hR : IsRegion R) : lib.get h R = if h.region = R then some (.bin (blob h)) else none := by
  show get h R = _
  unfold get
  rw [if_pos hR]

theorem encE_length (t : Nat) (s s' : Bytes) (h : s.length = s'.length) :
    (encE (t, .str s)).length = (encE (t, .str s')).length := by
  simp [encE, encD, encB, h, createBe32_length]

/-- Replacing a string by one of the same length. -/
theorem replaced (h g : Hdr) (t : Nat) (s s' : Bytes) (hs : s.length = s'.length) (hr : ¬ IsRegion t)
    (ht : lookup t h.tags = some (.str s)) (hg : WithTag lib h t (some (.str s')) g) :
    g.tags.length = h.tags.length ∧ (encL encE g.tags).length = (encL encE h.tags).length := by
  have e : g.tags = h.tags.map (fun e => if e.1 = t then (t, .str s') else e) := by
    have sorted : (h.tags.map (fun e => if e.1 = t then (t, .str s') else e)).Pairwise (fun a b => a.1 < b.1) := by
      rw [List.pairwise_map]
      refine h.good.1.imp (fun {a b} hab => ?_)
      by_cases ha : a.1 = t <;> by_cases hb : b.1 = t <;> simp_all <;> omega
    refine lookup_ext _ _ g.good.1 sorted (fun t' => ?_)
    have key : ∀ l : List (Nat × TagData), lookup t' (l.map (fun e => if e.1 = t then (t, .str s') else e)) =
        if t' = t then (lookup t l).map (fun _ => .str s') else lookup t' l := by
      intro l
      induction l with
      | nil => simp [lookup]
      | cons x l ih =>
        obtain ⟨y, d⟩ := x
        rw [List.map_cons]
        by_cases hy : y = t
        · subst hy
          simp only [if_true]
          rw [lookup, lookup, lookup, ih]
          by_cases e : y = t'
          · subst e
            simp
          · rw [if_neg e, if_neg (Ne.symm e), if_neg (Ne.symm e), if_neg e]
        · simp only [if_neg hy]
          rw [lookup, lookup, lookup, ih]
          by_cases e : y = t'
          · subst e
            rw [if_pos rfl, if_neg hy, if_pos rfl]
          · rw [if_neg e, if_neg hy, if_neg e]
    rw [key, ht]
    by_cases hreg : IsRegion t'
    · have n1 : lookup t' g.tags = none := by
        rcases hx : lookup t' g.tags with _ | x
        · rfl
        · exact absurd hreg (g.good.2 _ ((lookup_mem g.good.1).1 hx)).1
      have n2 : lookup t' h.tags = none := by
        rcases hx : lookup t' h.tags with _ | x
        · rfl
        · exact absurd hreg (h.good.2 _ ((lookup_mem h.good.1).1 hx)).1
      rw [n1, n2, if_neg (fun e : t' = t => hr (e ▸ hreg))]
    · have := hg t' hreg
      rw [lib_get _ _ hreg, lib_get _ _ hreg] at this
      rw [this]
      rfl
  refine ⟨by rw [e, List.length_map], ?_⟩
  unfold encL
  rw [List.length_append, List.length_append, createBe32_length, createBe32_length, e]
  congr 1
  have key : ∀ l : List (Nat × TagData), (∀ e ∈ l, e.1 = t → e = (t, .str s)) →
      ((l.map (fun e => if e.1 = t then (t, TagData.str s') else e)).map encE).flatten.length = ((l.map encE).flatten).length := by
    intro l
    induction l with
    | nil => intro _; rfl
    | cons x l ih =>
      intro hx
      rw [List.map_cons, List.map_cons, List.flatten_cons, List.length_append,
        ih (fun e he => hx e (List.mem_cons_of_mem _ he)), List.map_cons, List.flatten_cons, List.length_append]
      congr 1
      split
      · rename_i hxt
        rw [hx x List.mem_cons_self hxt]
        exact encE_length t s' s hs.symm
      · rfl
  refine key _ (fun e he het => ?_)
  obtain ⟨y, d⟩ := e
  simp only at het
  subst het
  have := (lookup_mem h.good.1).2 he
  rw [ht] at this
  rw [Option.some.inj this]

theorem reload_some {h h' : Hdr} {R : Nat} (hl : lib.reload h R = some h') :
    fits { h with region := R } = true ∧ { h with region := R } = h' := by
  have : reload h R = some h' := hl
  unfold reload at this
  split at this
  · rename_i hf
    exact ⟨hf, Option.some.inj this⟩
  · cases this

theorem lookup_region (h : Hdr) {t : Nat} (hreg : IsRegion t) : lookup t h.tags = none := by
  rcases hx : lookup t h.tags with _ | x
  · rfl
  · exact absurd hreg (h.good.2 _ ((lookup_mem h.good.1).1 hx)).1

theorem same_tags {h g : Hdr} (hs : SameTags lib h g) : h.tags = g.tags := by
  refine lookup_ext _ _ h.good.1 g.good.1 (fun t => ?_)
  by_cases hreg : IsRegion t
  · rw [lookup_region h hreg, lookup_region g hreg]
  · have := hs t hreg
    rw [lib_get _ _ hreg, lib_get _ _ hreg] at this
    exact this.symm

theorem laws : HeaderLaws lib Ok := by
  refine ⟨?_, ?_, ?_, ?_, ?_, ?_, ?_, ?_, ?_, ?_, ?_, ?_, ?_, ?_, ?_⟩
  · intro t
    show get _ t = none
    unfold get
    split
    · rename_i h
      exact if_neg (fun e : (0 : Nat) = t => by unfold IsRegion at h; omega)
    · rfl
  · intro h t d hg ht
    rw [lib_get _ _ ht, lookup_mem h.good.1] at hg
    exact ⟨(h.good.2 _ hg).2.2, (h.good.2 _ hg).2.1⟩
  · exact ⟨by decide, by decide⟩
  · intro n hn
    exact ⟨by simp, fun m hm => by rw [List.mem_singleton.1 hm]; exact hn⟩
  · intro m hm
    show m.length < 2^32
    rw [hm]
    decide
  · intro h t s
    show (match get h t with | some (.str s) => some s | _ => none) = some s ↔ get h t = _
    split
    · rename_i e
      rw [e]
      simp
    · rename_i e
      constructor
      · intro h; cases h
      · intro h; exact absurd h (e s)
  · intro h t d
    show (t, d) ∈ h.tags ↔ _
    constructor
    · intro hm
      have hr := (h.good.2 _ hm).1
      exact ⟨by rw [lib_get _ _ hr, lookup_mem h.good.1]; exact hm, hr⟩
    · rintro ⟨h1, h2⟩
      rw [lib_get _ _ h2, lookup_mem h.good.1] at h1
      exact h1
  · intro h
    exact h.good.1.imp (fun {a b} hab => Nat.ne_of_lt hab)
  · intro h t d hn hr hd ht
    rw [lib_get _ _ hr] at hn
    have c : lookup t h.tags = none ∧ ¬ IsRegion t ∧ t < 2^32 ∧ Ok d := ⟨hn, hr, ht, hd⟩
    refine ⟨⟨insert t d h.tags, h.region, insert_good h.good c.1 c.2.1 c.2.2.1 c.2.2.2⟩, ?_, ?_, ?_⟩
    · show put h t d = _
      unfold put
      rw [dif_pos c]
    · intro t' hr'
      rw [lib_get _ _ hr', lib_get _ _ hr']
      exact lookup_insert h.good.1 hn t'
    · intro R hR hn
      rw [get_region _ _ hR] at hn ⊢
      simp only
      split at hn
      · cases hn
      · rename_i hne
        rw [if_neg hne]
  · intro h t d hd hr
    rw [lib_get _ _ hr] at hd
    refine ⟨⟨h.tags.filter (fun e => e.1 ≠ t), h.region,
      ⟨h.good.1.filter _, fun e he => h.good.2 e (List.mem_filter.1 he).1⟩⟩, ?_, ?_, ?_⟩
    · show del h t = _
      unfold del
      rw [if_pos (by rw [hd]; rfl)]
    · intro t' hr'
      rw [lib_get _ _ hr', lib_get _ _ hr']
      exact lookup_filter t'
    · intro R hR hn
      rw [get_region _ _ hR] at hn ⊢
      simp only
      split at hn
      · cases hn
      · rename_i hne
        rw [if_neg hne]
  · intro h R h' hR hl
    obtain ⟨hf, rfl⟩ := reload_some hl
    refine ⟨fun t ht => by rw [lib_get _ _ ht, lib_get _ _ ht], blob { h with region := R }, { h with region := R }, ?_, ?_, ?_⟩
    · rw [get_region _ _ (by unfold IsRegion; omega), if_pos rfl]
    · have := (onDisk _ hf).imp []
      rw [List.append_nil] at this
      exact this
    · exact fun t ht => by rw [lib_get _ _ ht, lib_get _ _ ht]
  · intro h R h' hR hl
    obtain ⟨hf, rfl⟩ := reload_some hl
    refine ⟨_, onDisk _ hf, fun t d hg hr => hasIndex _ hf t d ?_⟩
    rw [lib_get _ _ hr, lookup_mem h.good.1] at hg
    exact hg
  · intro h g R _ _ hs
    have e : h.tags = g.tags := same_tags hs
    show reload h R = reload g R
    unfold reload
    have : ({ h with region := R } : Hdr) = { g with region := R } := Hdr.ext e rfl
    rw [this]
  · intro h R t s s' g hn hs ht hr _ _ hw
    rw [lib_get _ _ hr] at ht
    obtain ⟨r1, r2⟩ := replaced h g t s s' hs hr ht hw
    have hf : fits { h with region := R } = true := by
      by_cases c : fits { h with region := R } = true
      · exact c
      · exact absurd (show reload h R = none by unfold reload; rw [if_neg c]) hn
    show reload g R ≠ none
    unfold reload
    have : fits { g with region := R } = true := by
      rw [fits_iff] at hf ⊢
      rw [blob_length] at hf ⊢
      simp only [data, List.length_append, createBe32_length, r1, r2] at hf ⊢
      exact hf
    rw [if_pos this]
    exact fun e => by cases e
  · intro g n m hn hm _ hg
    have e : g.tags = [(1000, .u32 [n]), (1004, .bin m)] := by
      refine lookup_ext _ _ g.good.1 (by simp) (fun t => ?_)
      by_cases hreg : IsRegion t
      · rw [lookup_region g hreg]
        unfold IsRegion at hreg
        simp only [lookup]
        rw [if_neg (by omega), if_neg (by omega)]
      · have := hg t hreg
        rw [lib_get _ _ hreg] at this
        rw [this]
        simp only [lookup, eq_comm]
    show reload g 62 ≠ none
    unfold reload
    have : fits { g with region := 62 } = true := by
      rw [fits_iff, blob_length]
      simp only [data, e, encL, encE, encD, encB, List.length_append, createBe32_length, List.length_cons, List.map_cons,
        List.map_nil, List.flatten_cons, List.flatten_nil, List.length_nil, hm]
      exact ⟨by decide, by decide⟩
    rw [if_pos this]
    exact fun e => by cases e

end Toy
end Drpm
