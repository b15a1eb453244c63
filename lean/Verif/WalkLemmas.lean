import Verif.SearchLemmas
import Verif.DiffSpec
/-! Helper lemmas: the copy lists describe the regions they were made from. -/

namespace Drpm

theorem walkCopies_append (old : Bytes) (p : Nat) (a b : List (Nat × Nat)) (q : Nat) (x : Bytes)
    (ha : walkCopies old p a = some x)
    (hq : a.foldl (fun (p : Nat) c => ((p : Int) + s32 c.1).toNat + c.2) p = q) :
    walkCopies old p (a ++ b) = (walkCopies old q b).map (x ++ ·) := by
  induction a generalizing p x with
  | nil =>
    simp only [walkCopies, Option.some.injEq] at ha
    subst ha
    simp only [List.foldl_nil] at hq
    subst hq
    simp
  | cons c a ih =>
    obtain ⟨w, len⟩ := c
    simp only [walkCopies, List.cons_append] at ha ⊢
    split at ha
    · rename_i h
      rw [if_pos h]
      simp only [Option.map_eq_some_iff] at ha
      obtain ⟨y, hy, rfl⟩ := ha
      rw [ih _ y hy hq]
      simp [Function.comp_def]
    · simp at ha

theorem extCopiesOf_walk (old : Bytes) (fuel oldOff oldLen offset : Nat)
    (hfuel : (if oldOff ≤ offset then offset - oldOff else oldOff - offset) < fuel)
    (hlen : oldLen < 2^31) (hb : oldOff + oldLen ≤ old.length) (ho : offset ≤ old.length) :
    ∃ cs, extCopiesOf fuel oldOff oldLen offset = .ok (cs, oldOff + oldLen) ∧
      walkCopies old offset cs = some (slice old oldOff oldLen) ∧
      cs.foldl (fun (p : Nat) c => ((p : Int) + s32 c.1).toNat + c.2) offset = oldOff + oldLen ∧
      ∀ c ∈ cs, c.1 < 2^32 ∧ c.1 ≠ 2^31 ∧ c.2 < 2^31 := by
  induction fuel generalizing offset with
  | zero => omega
  | succ fuel ih =>
    unfold extCopiesOf
    have hs1 := s32_int32Max
    have hs2 := s32_neg_int32Max
    have ht : twosComplement32 int32Max = 2147483649 := by decide
    have hM : int32Max = 2147483647 := rfl
    generalize twosComplement32 int32Max = T at hs2 ht ⊢
    generalize int32Max = M at hs1 hM ⊢
    split
    · rename_i h
      obtain ⟨cs, e, w, f, hc⟩ := ih (offset + M) (by split at hfuel <;> split <;> omega) (by omega)
      rw [e, Out.bind_ok]
      have hto : ((offset : Int) + s32 M).toNat = offset + M := by omega
      refine ⟨_, rfl, ?_, ?_, ?_⟩
      · simp only [walkCopies, hto]
        rw [if_pos (by omega)]
        simp [w]
      · rw [List.foldl_cons, hto, Nat.add_zero]; exact f
      · intro c hc'
        simp only [List.mem_cons] at hc'
        rcases hc' with rfl | hc'
        · simp only; omega
        · exact hc c hc'
    · split
      · rename_i h1 h
        obtain ⟨k, rfl⟩ : ∃ k, offset = k + M := ⟨offset - M, by omega⟩
        rw [Nat.add_sub_cancel]
        obtain ⟨cs, e, w, f, hc⟩ := ih k (by split at hfuel <;> split <;> omega) (by omega)
        rw [e, Out.bind_ok]
        have hto : (((k + M : Nat) : Int) + s32 T).toNat = k := by omega
        refine ⟨_, rfl, ?_, ?_, ?_⟩
        · simp only [walkCopies, hto]
          rw [if_pos (by omega)]
          simp [w]
        · rw [List.foldl_cons, hto, Nat.add_zero]; exact f
        · intro c hc'
          simp only [List.mem_cons] at hc'
          rcases hc' with rfl | hc'
          · simp only; omega
          · exact hc c hc'
      · rename_i h1 h2
        simp only
        rw [if_neg (by omega)]
        have hs : s32 (u32OfInt ((oldOff : Int) - offset)) = (oldOff : Int) - offset :=
          s32_u32OfInt _ (by omega) (by omega)
        refine ⟨_, rfl, ?_, ?_, ?_⟩
        · simp only [walkCopies, hs]
          rw [show ((offset : Int) + (oldOff - offset)) = oldOff by omega, Int.toNat_natCast, if_pos (by omega)]
          simp
        · simp only [List.foldl_cons, List.foldl_nil, hs]
          omega
        · intro c hc'
          simp only [List.mem_singleton] at hc'
          subst hc'
          simp only [u32OfInt]
          omega

theorem copiesLoop_walk (old : Bytes) (rs : List DiffCopy) (offset pending : Nat)
    (ho : offset ≤ old.length)
    (hr : ∀ r ∈ rs, r.oldLen < 2^31 ∧ r.oldOff + r.oldLen ≤ old.length) :
    ∃ exts ints, copiesLoop rs offset pending = .ok (exts, ints) ∧
      walkCopies old offset exts = some (regionBytes old rs) ∧
      (∀ c ∈ exts, c.1 < 2^32 ∧ c.1 ≠ 2^31 ∧ c.2 < 2^31) ∧
      (ints.map Prod.fst).sum = pending + exts.length ∧
      (ints.map Prod.snd).sum = (rs.map (·.newLen)).sum ∧ (∀ c ∈ ints, c.2 < 2^31) := by
  induction rs generalizing offset pending with
  | nil =>
    refine ⟨[], _, rfl, by simp [walkCopies, regionBytes], by simp, ?_, ?_, ?_⟩
    · split <;> simp; omega
    · split <;> simp
    · split <;> simp
  | cons r rs ih =>
    obtain ⟨hr1, hr2⟩ := hr r (by simp)
    obtain ⟨E, off', hE, hwE, hfE, hcE, hoff'⟩ : ∃ E off', extStep r offset = .ok (E, off') ∧
        walkCopies old offset E = some (slice old r.oldOff r.oldLen) ∧
        E.foldl (fun (p : Nat) c => ((p : Int) + s32 c.1).toNat + c.2) offset = off' ∧
        (∀ c ∈ E, c.1 < 2^32 ∧ c.1 ≠ 2^31 ∧ c.2 < 2^31) ∧ off' ≤ old.length := by
      unfold extStep
      split
      · obtain ⟨cs, e, w, f, hc⟩ := extCopiesOf_walk old (r.oldOff + r.oldLen + offset + 1) r.oldOff r.oldLen
          offset (by split <;> omega) hr1 hr2 ho
        exact ⟨cs, _, e, w, f, hc, hr2⟩
      · rename_i h
        simp at h
        exact ⟨[], _, rfl, by simp [walkCopies, h], rfl, by simp, ho⟩
    obtain ⟨I, pend', hI, hIs, hIl, hIb⟩ : ∃ I pend', intStep r (pending + E.length) = .ok (I, pend') ∧
        (I.map Prod.fst).sum + pend' = pending + E.length ∧ (I.map Prod.snd).sum = r.newLen ∧
        (∀ c ∈ I, c.2 < 2^31) := by
      unfold intStep
      split
      · obtain ⟨is, e, ⟨l, rest, rfl, hz⟩, hp, hs⟩ := intCopiesOf_ok (r.newLen + 1) (pending + E.length) r.newLen
          (by omega) (by omega)
        rw [e]
        refine ⟨_, _, rfl, ?_, hs, fun c hc => (hp c hc).2⟩
        have : (rest.map Prod.fst).sum = 0 := by
          clear hp hs e
          induction rest with
          | nil => rfl
          | cons x rest ih => 
            simp [hz x (by simp), ih (fun y hy => hz y (by simp [hy]))]
        simp [this]
      · rename_i h
        simp at h
        exact ⟨[], _, rfl, by simp, by simp [h], by simp⟩
    obtain ⟨exts, ints, e, w, hc, hi1, hi2, hi3⟩ := ih off' pend' hoff' (fun x hx => hr x (by simp [hx]))
    refine ⟨E ++ exts, I ++ ints, ?_, ?_, ?_, ?_, ?_, ?_⟩
    · unfold copiesLoop
      rw [hE, Out.bind_ok]
      simp only
      rw [hI, Out.bind_ok]
      simp only
      rw [e]
      rfl
    · rw [walkCopies_append old offset E exts off' _ hwE hfE, w]
      simp [regionBytes]
    · intro c hc'
      rcases List.mem_append.1 hc' with h | h
      · exact hcE c h
      · exact hc c h
    · simp; omega
    · simp; omega
    · intro c hc'
      rcases List.mem_append.1 hc' with h | h
      · exact hIb c h
      · exact hi3 c h

/-! ## Copy lists exist for every list of regions -/

theorem extCopiesOf_total (fuel oldOff oldLen offset : Nat)
    (hfuel : (if oldOff ≤ offset then offset - oldOff else oldOff - offset) + oldLen < fuel) :
    ∃ cs off, extCopiesOf fuel oldOff oldLen offset = .ok (cs, off) := by
  induction fuel generalizing oldOff oldLen offset with
  | zero => omega
  | succ fuel ih =>
    unfold extCopiesOf
    have hM : int32Max = 2147483647 := rfl
    generalize twosComplement32 int32Max = T
    generalize int32Max = M at hM ⊢
    split
    · obtain ⟨cs, off, e⟩ := ih oldOff oldLen (offset + M) (by split at hfuel <;> split <;> omega)
      rw [e, Out.bind_ok]
      exact ⟨_, _, rfl⟩
    · split
      · rename_i h
        obtain ⟨k, rfl⟩ : ∃ k, offset = k + M := ⟨offset - M, by omega⟩
        rw [Nat.add_sub_cancel]
        obtain ⟨cs, off, e⟩ := ih oldOff oldLen k (by split at hfuel <;> split <;> omega)
        rw [e, Out.bind_ok]
        exact ⟨_, _, rfl⟩
      · simp only
        split
        · obtain ⟨k, rfl⟩ : ∃ k, oldLen = k + M := ⟨oldLen - M, by omega⟩
          rw [Nat.add_sub_cancel]
          obtain ⟨cs, off, e⟩ := ih (offset + M) k (offset + M) (by simp; split at hfuel <;> omega)
          rw [e, Out.bind_ok]
          exact ⟨_, _, rfl⟩
        · exact ⟨_, _, rfl⟩

theorem copiesLoop_total (new : Bytes) (hnew : new.length < 2^63) (rs : List DiffCopy)
    (hr : ∀ r ∈ rs, r.newOff + r.newLen ≤ new.length) (offset pending : Nat) :
    ∃ exts ints, copiesLoop rs offset pending = .ok (exts, ints) ∧
      ∀ o ≤ new.length, ∃ data, intDataLoop new ints rs o 0 = .ok data := by
  induction rs generalizing offset pending with
  | nil =>
    refine ⟨_, _, rfl, ?_⟩
    intro o ho
    split
    · exact ⟨[[]], by simp [intDataLoop, rdBlk, ho]⟩
    · exact ⟨[], rfl⟩
  | cons r rs ih =>
    obtain ⟨E, off', hE⟩ : ∃ E off', extStep r offset = .ok (E, off') := by
      unfold extStep
      split
      · exact extCopiesOf_total _ _ _ _ (by split <;> omega)
      · exact ⟨_, _, rfl⟩
    have hb := hr r (by simp)
    by_cases h0 : r.newLen = 0
    · obtain ⟨exts, ints, e, hd⟩ := ih (fun x hx => hr x (by simp [hx])) off' (pending + E.length)
      refine ⟨E ++ exts, ints, ?_, ?_⟩
      · unfold copiesLoop
        simp only [hE, Out.bind_ok, intStep, h0, ne_eq, not_true_eq_false, if_false, e, List.nil_append]
      · intro o ho
        rw [intDataLoop_skip _ _ _ _ _ h0]
        exact hd o ho
    · obtain ⟨exts, ints, e, hd⟩ := ih (fun x hx => hr x (by simp [hx])) off' 0
      obtain ⟨is, i1, ⟨l, ir, i2, _⟩, i3, i4⟩ :=
        intCopiesOf_ok (r.newLen + 1) (pending + E.length) r.newLen (by omega) (by omega)
      refine ⟨E ++ exts, is ++ ints, ?_, ?_⟩
      · unfold copiesLoop
        simp only [hE, Out.bind_ok, intStep, if_pos h0, i1, e]
      · intro o ho
        obtain ⟨data, hdata⟩ := hd (r.newOff + r.newLen) hb
        obtain ⟨pieces, d1, _, _⟩ := intDataLoop_region new is ints rs r.newOff r.newLen
          (fun x hx => (i3 x hx).1) i4 hb (by omega) data hdata
        have hfirst : 0 < l := (i3 (pending + E.length, l) (by simp [i2])).1
        refine ⟨pieces ++ data, ?_⟩
        rw [← d1, i2]
        simp only [List.cons_append]
        rw [intDataLoop, intDataLoop]
        rw [if_pos ⟨hfirst, rfl⟩, if_neg (by omega)]
        simp [nextRegion, h0]

theorem RegionsOK.bounds {old new : Bytes} {addblk : Bool} {cs : List DiffCopy} {add : Bytes} {p : Nat}
    (h : RegionsOK old new addblk cs add p) :
    ∀ c ∈ cs, c.oldOff + c.oldLen ≤ old.length ∧ c.newOff + c.newLen ≤ new.length ∧ c.oldLen ≤ c.newOff := by
  induction cs generalizing add p with
  | nil => simp
  | cons c cs ih =>
    obtain ⟨h1, h2, h3, rest, _, h5⟩ := h
    intro x hx
    simp only [List.mem_cons] at hx
    rcases hx with rfl | hx
    · exact ⟨h2, h3, by omega⟩
    · exact ih h5 x hx

/-- Everything the other files need to know about a computed difference. -/
theorem makeDiff_spec (old new : Bytes) (addblk : Bool) (hn : 16 ≤ new.length)
    (hnew : new.length < 2^63) :
    ∃ d, makeDiff old new addblk = .ok d ∧
      RegionsOK old new addblk d.regions d.addWrites.flatten 0 ∧
      createDiffCopies d.regions = .ok (d.ext, d.int) ∧
      intDataLoop new d.int d.regions 0 0 = .ok d.intData := by
  obtain ⟨h, hh, hk⟩ := hashCreate_ok old
  obtain ⟨cs, adds, e, hR⟩ := makeDiffWith_ok _ old new addblk
    (hashSearch_SearchOK h old new hk hn (by omega))
  obtain ⟨exts, ints, e2, hd⟩ := copiesLoop_total new hnew cs (fun c hc => (hR.bounds c hc).2.1) 0 0
  obtain ⟨data, e3⟩ := hd 0 (by omega)
  refine ⟨⟨exts, ints, data, adds, cs⟩, ?_, hR, e2, e3⟩
  unfold makeDiff makeDiffWith createDiffCopies
  rw [hh, Out.bind_ok, e, Out.bind_ok]
  simp only
  rw [e2, Out.bind_ok]
  simp only
  rw [e3]
  rfl

theorem regions_recon (old new : Bytes) (addblk : Bool) (hold : old.length < 2^63)
    (hnew : new.length < 2^63) (rs : List DiffCopy) (hlt : ∀ r ∈ rs, r.oldLen < 2^31) (add : Bytes)
    (ext int : List (Nat × Nat)) (data : List Bytes)
    (hR : RegionsOK old new addblk rs add 0) (e2 : createDiffCopies rs = .ok (ext, int))
    (e3 : intDataLoop new int rs 0 0 = .ok data) :
    ∃ s' : ReconSt Unit, reconLoop (flatNext old) addblk int ext data.flatten ⟨(), 0, 0, add, []⟩ = .ok s' ∧
      s'.out.flatten = new ∧ (addblk = true → s'.add = []) := by
  obtain ⟨exts', ints', data', f1, f2, f3⟩ := recon_regions old new addblk hold hnew rs hlt
    add 0 0 [] (by omega) hR
  unfold createDiffCopies at e2
  simp only [List.length_nil] at f1
  rw [e2] at f1
  simp only [Out.ok.injEq, Prod.mk.injEq] at f1
  obtain ⟨rfl, rfl⟩ := f1
  have := f2 0 (by omega)
  rw [e3] at this
  simp only [Out.ok.injEq] at this
  subst this
  obtain ⟨s', k1, k2, k3⟩ := f3 ⟨(), 0, 0, add, []⟩ ⟨(), 0, 0, add, []⟩ rfl rfl (fun _ => rfl)
  exact ⟨s', by simpa using k1, by simpa using k2, k3⟩

end Drpm
