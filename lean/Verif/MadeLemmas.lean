import Verif.FormatSpec
import Verif.WalkLemmas
/-!
# The diff meets what the reader demands of copies
-/

namespace Drpm

theorem le_sum_of_mem {l : List Nat} {x : Nat} (h : x ∈ l) : x ≤ l.sum := by
  induction l with
  | nil => simp at h
  | cons y l ih =>
    simp only [List.mem_cons] at h
    simp only [List.sum_cons]
    rcases h with rfl | h
    · omega
    · have := ih h; omega

theorem walkCopies_inside (old : Bytes) (p : Nat) (cs : List (Nat × Nat))
    (h : (walkCopies old p cs).isSome) : CopiesInside old.length p cs := by
  induction cs generalizing p with
  | nil => trivial
  | cons c cs ih =>
    obtain ⟨w, n⟩ := c
    unfold walkCopies at h
    simp only at h
    split at h
    · rename_i hq
      simp only [Option.isSome_map] at h
      exact ⟨((p : Int) + s32 w).toNat, by omega, hq.2, ih _ h⟩
    · simp at h

theorem EndsPositive_append (p : Nat) (a b : List (Nat × Nat)) (q : Nat)
    (ha : EndsPositive p a)
    (hq : a.foldl (fun (p : Nat) c => ((p : Int) + s32 c.1).toNat + c.2) p = q)
    (hb : EndsPositive q b) : EndsPositive p (a ++ b) := by
  induction a generalizing p with
  | nil =>
    simp only [List.foldl_nil] at hq
    subst hq
    simpa using hb
  | cons c a ih =>
    obtain ⟨w, n⟩ := c
    simp only [List.foldl_cons] at hq
    exact ⟨ha.1, ih _ ha.2 hq⟩

theorem extCopiesOf_words (fuel oldOff oldLen offset : Nat) (cs : List (Nat × Nat)) (off : Nat)
    (h : extCopiesOf fuel oldOff oldLen offset = .ok (cs, off)) :
    ∀ c ∈ cs, c.1 < 2^32 ∧ c.1 ≠ 2^31 := by
  induction fuel generalizing oldOff oldLen offset cs with
  | zero => simp [extCopiesOf] at h
  | succ fuel ih =>
    unfold extCopiesOf at h
    split at h
    · rw [Out.bind_eq_ok] at h
      obtain ⟨⟨cs', o'⟩, h1, h2⟩ := h
      simp only [Out.ok.injEq, Prod.mk.injEq] at h2
      obtain ⟨rfl, rfl⟩ := h2
      intro c hc
      simp only [List.mem_cons] at hc
      rcases hc with rfl | hc
      · decide
      · exact ih _ _ _ _ h1 c hc
    · split at h
      · rw [Out.bind_eq_ok] at h
        obtain ⟨⟨cs', o'⟩, h1, h2⟩ := h
        simp only [Out.ok.injEq, Prod.mk.injEq] at h2
        obtain ⟨rfl, rfl⟩ := h2
        intro c hc
        simp only [List.mem_cons] at hc
        rcases hc with rfl | hc
        · decide
        · exact ih _ _ _ _ h1 c hc
      · rename_i hA hB
        have hw : u32OfInt ((oldOff : Int) - offset) < 2^32 ∧ u32OfInt ((oldOff : Int) - offset) ≠ 2^31 := by
          unfold u32OfInt
          omega
        simp only at h
        split at h
        · rw [Out.bind_eq_ok] at h
          obtain ⟨⟨cs', o'⟩, h1, h2⟩ := h
          simp only [Out.ok.injEq, Prod.mk.injEq] at h2
          obtain ⟨rfl, rfl⟩ := h2
          intro c hc
          simp only [List.mem_cons] at hc
          rcases hc with rfl | hc
          · exact hw
          · exact ih _ _ _ _ h1 c hc
        · simp only [Out.ok.injEq, Prod.mk.injEq] at h
          obtain ⟨rfl, rfl⟩ := h
          simpa using hw

theorem copiesLoop_words (rs : List DiffCopy) (offset pending : Nat) (ext int : List (Nat × Nat))
    (h : copiesLoop rs offset pending = .ok (ext, int)) : ∀ p ∈ ext, p.1 < 2^32 ∧ p.1 ≠ 2^31 := by
  induction rs generalizing offset pending ext int with
  | nil =>
    simp only [copiesLoop, Out.ok.injEq, Prod.mk.injEq] at h
    rw [← h.1]
    simp
  | cons r rs ih =>
    unfold copiesLoop at h
    rw [Out.bind_eq_ok] at h
    obtain ⟨⟨e1, o1⟩, h1, h⟩ := h
    simp only at h
    rw [Out.bind_eq_ok] at h
    obtain ⟨⟨i1, p1⟩, h2, h⟩ := h
    simp only at h
    rw [Out.bind_eq_ok] at h
    obtain ⟨⟨e2, i2⟩, h3, h⟩ := h
    simp only [Out.ok.injEq, Prod.mk.injEq] at h
    obtain ⟨rfl, rfl⟩ := h
    intro p hp
    rw [List.mem_append] at hp
    rcases hp with hp | hp
    · unfold extStep at h1
      split at h1
      · exact extCopiesOf_words _ _ _ _ _ _ h1 p hp
      · simp only [Out.ok.injEq, Prod.mk.injEq] at h1
        rw [← h1.1] at hp
        simp at hp
    · exact ih _ _ _ _ h3 p hp

theorem extCopiesOf_ends (fuel oldOff oldLen offset : Nat) (cs : List (Nat × Nat)) (off : Nat)
    (hl : oldLen < 2^31) (h0 : oldLen ≠ 0)
    (h : extCopiesOf fuel oldOff oldLen offset = .ok (cs, off)) :
    EndsPositive offset cs ∧
      cs.foldl (fun (p : Nat) c => ((p : Int) + s32 c.1).toNat + c.2) offset = off := by
  induction fuel generalizing offset cs with
  | zero => simp [extCopiesOf] at h
  | succ fuel ih =>
    unfold extCopiesOf at h
    have hM : int32Max = 2147483647 := rfl
    have hs1 : s32 int32Max = int32Max := by decide
    have hs2 : s32 (twosComplement32 int32Max) = -(int32Max : Int) := by decide
    generalize twosComplement32 int32Max = T at hs2 h
    generalize int32Max = M at hM hs1 hs2 h
    split at h
    · rw [Out.bind_eq_ok] at h
      obtain ⟨⟨cs', o'⟩, h1, h2⟩ := h
      simp only [Out.ok.injEq, Prod.mk.injEq] at h2
      obtain ⟨rfl, rfl⟩ := h2
      obtain ⟨g1, g2⟩ := ih _ _ h1
      have e : ((offset : Int) + s32 M).toNat + 0 = offset + M := by rw [hs1]; omega
      simp only [EndsPositive, List.foldl_cons, e]
      exact ⟨⟨by omega, g1⟩, g2⟩
    · split at h
      · rename_i hA hB
        obtain ⟨k, rfl⟩ : ∃ k, offset = k + M := ⟨offset - M, by omega⟩
        rw [Nat.add_sub_cancel] at h
        rw [Out.bind_eq_ok] at h
        obtain ⟨⟨cs', o'⟩, h1, h2⟩ := h
        simp only [Out.ok.injEq, Prod.mk.injEq] at h2
        obtain ⟨rfl, rfl⟩ := h2
        obtain ⟨g1, g2⟩ := ih _ _ h1
        have e : (((k + M : Nat) : Int) + s32 T).toNat + 0 = k := by rw [hs2]; omega
        simp only [EndsPositive, List.foldl_cons, e]
        exact ⟨⟨by omega, g1⟩, g2⟩
      · rename_i hA hB
        rw [if_neg (by omega)] at h
        simp only [Out.ok.injEq, Prod.mk.injEq] at h
        obtain ⟨rfl, rfl⟩ := h
        have e : ((offset : Int) + s32 (u32OfInt ((oldOff : Int) - offset))).toNat + oldLen =
            oldOff + oldLen := by
          rw [s32_u32OfInt _ (by omega) (by omega)]; omega
        simp only [EndsPositive, List.foldl_cons, List.foldl_nil, e]
        exact ⟨⟨by omega, trivial⟩, trivial⟩

theorem copiesLoop_endsPositive (rs : List DiffCopy) (offset pending : Nat)
    (ext int : List (Nat × Nat)) (hr : ∀ r ∈ rs, r.oldLen < 2^31)
    (h : copiesLoop rs offset pending = .ok (ext, int)) : EndsPositive offset ext := by
  induction rs generalizing offset pending ext int with
  | nil =>
    simp only [copiesLoop, Out.ok.injEq, Prod.mk.injEq] at h
    rw [← h.1]
    trivial
  | cons r rs ih =>
    unfold copiesLoop at h
    rw [Out.bind_eq_ok] at h
    obtain ⟨⟨e1, o1⟩, h1, h⟩ := h
    simp only at h
    rw [Out.bind_eq_ok] at h
    obtain ⟨⟨i1, p1⟩, h2, h⟩ := h
    simp only at h
    rw [Out.bind_eq_ok] at h
    obtain ⟨⟨e2, i2⟩, h3, h⟩ := h
    simp only [Out.ok.injEq, Prod.mk.injEq] at h
    obtain ⟨rfl, rfl⟩ := h
    have g3 := ih _ _ _ _ (fun x hx => hr x (by simp [hx])) h3
    unfold extStep at h1
    split at h1
    · obtain ⟨k1, k2⟩ := extCopiesOf_ends _ _ _ _ _ _ (hr r (by simp)) (by assumption) h1
      exact EndsPositive_append _ _ _ _ k1 k2 g3
    · simp only [Out.ok.injEq, Prod.mk.injEq] at h1
      obtain ⟨rfl, rfl⟩ := h1
      exact g3

theorem intDataLoop_lengths (new : Bytes) (ints : List (Nat × Nat)) (cs : List DiffCopy)
    (offset left : Nat) (data : List Bytes) (h : intDataLoop new ints cs offset left = .ok data) :
    data.map List.length = ints.map (·.2) := by
  induction ints generalizing cs offset left data with
  | nil =>
    simp only [intDataLoop, Out.ok.injEq] at h
    rw [← h]; rfl
  | cons i ints ih =>
    obtain ⟨a, todo⟩ := i
    have key : ∀ (l' o' : Nat) (c' : List DiffCopy), (do
        let d ← rdBlk new o' todo
        let rest ← intDataLoop new ints c' (o' + todo) ((l' + 2^64 - todo) % 2^64)
        Out.ok (d :: rest)) = .ok data → data.map List.length = ((a, todo) :: ints).map (·.2) := by
      intro l' o' c' h
      rw [Out.bind_eq_ok] at h
      obtain ⟨b, hb, h⟩ := h
      rw [Out.bind_eq_ok] at h
      obtain ⟨rest, hrest, h⟩ := h
      simp only [Out.ok.injEq] at h
      subst h
      unfold rdBlk at hb
      split at hb
      · cases hb
        simp only [List.map_cons, List.length_take, List.length_drop, ih _ _ _ _ hrest,
          List.cons.injEq, and_true]
        omega
      · cases hb
    unfold intDataLoop at h
    simp only at h
    split at h
    · rw [Out.bind_eq_ok] at h
      obtain ⟨⟨l', o', c'⟩, _, h⟩ := h
      exact key _ _ _ h
    · rw [Out.bind_ok] at h
      exact key _ _ _ h

end Drpm
