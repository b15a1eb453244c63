import Verif.Make
import Verif.AcceptLemmas
import Verif.Props.Stream
import Verif.Props.Cpio
/-!
# Lemmas about making and applying deltas
-/

namespace Drpm

/-! ## Numbers in byte strings -/

theorem be32At_take (b : Bytes) (h : 4 ≤ b.length) : be32At b = be32At (b.take 4) := by
  match b, h with
  | _ :: _ :: _ :: _ :: _, _ => rfl

theorem be32At_drop (a : Bytes) (i : Nat) (h : i + 4 ≤ a.length) :
    be32At (a.drop i) = .ok (word a i) ∧ word a i < 2^32 := by
  have hl : ((a.drop i).take 4).length = 4 := by rw [List.length_take, List.length_drop]; omega
  obtain ⟨h1, h2⟩ := be32At_word _ hl
  rw [be32At_take _ (by rw [List.length_drop]; omega), h1]
  exact ⟨rfl, h2⟩

/-! ## The wrapper around a compressor that works -/

theorem csWrite_fails {σ : Type} {E : Enc σ} {s s' : CStrm σ} {b : Bytes} {e : Err} {ps : List Bytes}
    (hf : s.finished = false) (hemit : emit E E.init ps = some (s.data, s.st))
    (h : csWrite E s b = (some e, s')) : b ≠ [] ∧ emit E E.init (ps ++ [b]) = none := by
  unfold csWrite at h
  simp only [hf, Bool.false_eq_true, if_false] at h
  split at h
  · cases h
  · rename_i hb
    refine ⟨fun hn => hb (by rw [hn]; rfl), ?_⟩
    rw [emit_append, hemit]
    rcases hw : E.write s.st b with ⟨o, st, r⟩
    rw [hw] at h
    cases r with
    | none => simp only at h; cases h
    | some e => simp [emit, hw]

theorem WInv.write_fails {σ : Type} {E : Enc σ} {ulen : Nat} {f0 flat : Bytes} {ps : List Bytes}
    {w w' : Wrap σ} {b : Bytes} {e : Err} (h : WInv E ulen f0 flat ps w) (hw : wrWrite E w b = (some e, w')) :
    ∃ qs, qs.flatten = (flat ++ b).drop ulen ∧ [] ∉ qs ∧ Drpm.emit E E.init qs = none := by
  obtain ⟨hu, hd, hr, hne, he, hp, hfd, hfile, ho⟩ := h
  have hdl : w.udata.length = min ulen flat.length := by rw [hd, List.length_take]
  unfold wrWrite at hw
  split at hw
  · rename_i hlt
    have hfl : flat.length < ulen := by omega
    split at hw
    · cases hw
    · simp only [Prod.mk.injEq] at hw
      obtain ⟨h1, h2⟩ := hw
      rw [hu, hdl, show min ulen flat.length = flat.length by omega] at h1
      have hps : ps = [] := by
        have h3 : flat.drop ulen = [] := by rw [List.drop_eq_nil_iff]; omega
        rw [h3, List.flatten_eq_nil_iff] at hr
        cases ps with
        | nil => rfl
        | cons p ps => exact absurd (by rw [hr p (by simp)]; simp) hne
      subst hps
      have hdr : (flat ++ b).drop ulen = b.drop (min (ulen - flat.length) b.length) := by
        rw [List.drop_append, show flat.drop ulen = [] by rw [List.drop_eq_nil_iff]; omega,
          List.nil_append]
        rcases Nat.le_total (ulen - flat.length) b.length with hle | hle
        · rw [Nat.min_eq_left hle]
        · rw [Nat.min_eq_right hle, List.drop_length, List.drop_eq_nil_of_le hle]
      obtain ⟨k1, k2⟩ := csWrite_fails (E := E) (ps := []) (s' := _)
        (s := { w.strm with file := w.strm.file ++ b.take (min (ulen - flat.length) b.length) })
        ho (by exact he) (Prod.ext h1 rfl)
      refine ⟨[b.drop (min (ulen - flat.length) b.length)], by rw [hdr]; simp, ?_, k2⟩
      simpa using k1
  · rename_i hge
    have hfl : ulen ≤ flat.length := by omega
    simp only [Prod.mk.injEq] at hw
    obtain ⟨h1, h2⟩ := hw
    obtain ⟨k1, k2⟩ := csWrite_fails (E := E) (ps := ps) ho he (Prod.ext h1 rfl)
    refine ⟨ps ++ [b], ?_, ?_, k2⟩
    · rw [List.drop_append_of_le_length hfl, List.flatten_append, hr]; simp
    · simp only [List.mem_append, List.mem_singleton, not_or]
      exact ⟨hne, fun hn => k1 hn.symm⟩

theorem wrWrites_fails {σ : Type} {E : Enc σ} {ulen : Nat} {f0 : Bytes} (bs : List Bytes) :
    ∀ {flat : Bytes} {ps : List Bytes} {w : Wrap σ}, WInv E ulen f0 flat ps w →
      (∃ w', wrWrites E w bs = .ok w') ∨
      ∃ qs, qs.flatten = (flat ++ bs.flatten).drop ulen ∧ [] ∉ qs ∧ encodeAll E E.init qs = none := by
  induction bs with
  | nil => intro flat ps w h; exact Or.inl ⟨w, rfl⟩
  | cons b bs ih =>
    intro flat ps w h
    rw [wrWrites]
    rcases hw : wrWrite E w b with ⟨r, w1⟩
    cases r with
    | none =>
      obtain ⟨ps1, h1⟩ := h.write hw
      simp only
      rcases ih h1 with k | ⟨qs, k1, k2, k3⟩
      · exact Or.inl k
      · exact Or.inr ⟨qs, by rw [k1]; simp, k2, k3⟩
    | some e =>
      obtain ⟨qs, k1, k2, k3⟩ := h.write_fails hw
      right
      by_cases hn : bs.flatten.drop (ulen - (flat ++ b).length) = []
      · refine ⟨qs, ?_, k2, by rw [encodeAll_emit, k3]; rfl⟩
        rw [k1, List.flatten_cons, ← List.append_assoc, List.drop_append (l₁ := flat ++ b), hn, List.append_nil]
      · refine ⟨qs ++ [bs.flatten.drop (ulen - (flat ++ b).length)], ?_, ?_, ?_⟩
        · rw [List.flatten_append, k1, List.flatten_cons (l := b), ← List.append_assoc, List.drop_append (l₁ := flat ++ b)]
          simp
        · simp only [List.mem_append, List.mem_singleton, not_or]
          exact ⟨k2, fun h => hn h.symm⟩
        · rw [encodeAll_emit, emit_append, k3]; rfl

/-- Writing through the wrapper, when the compressor produces `z` from the data after the prefix
    however it is cut. -/
theorem wrAll_exact {σ : Type} (E : Enc σ) (ulen : Nat) (f0 : Bytes) (bs : List Bytes) (z : Bytes)
    (hl : ulen ≤ bs.flatten.length)
    (hE : ∀ ps, ps.flatten = bs.flatten.drop ulen → [] ∉ ps → encodeAll E E.init ps = some z) :
    wrAll E ulen f0 bs = .ok (bs.flatten.take ulen ++ z, f0 ++ (bs.flatten.take ulen ++ z)) := by
  have hok : ∃ r, wrAll E ulen f0 bs = .ok r := by
    rcases wrWrites_fails bs (WInv.init E ulen f0) with ⟨w, hw⟩ | ⟨qs, k1, k2, k3⟩
    · obtain ⟨ps, hi⟩ := WInv.writes bs (WInv.init E ulen f0) hw
      rw [List.nil_append] at hi
      have hz := hE ps hi.rest hi.ne
      rw [encodeAll_emit, hi.hemit] at hz
      unfold wrAll
      rw [hw, Out.bind_ok]
      have : ∃ d s', csFinish E w.strm = (.ok d, s') := by
        unfold csFinish
        simp only [hi.open_, Bool.false_eq_true, if_false]
        simp only [Option.bind_some, encodeAll] at hz
        cases hfin : E.finish with
        | none => exact ⟨_, _, rfl⟩
        | some f =>
          rw [hfin] at hz
          simp only at hz
          rcases hq : f w.strm.st with ⟨o, r⟩
          rw [hq] at hz
          cases r with
          | none => simp only [hq]; exact ⟨_, _, rfl⟩
          | some e => simp at hz
      obtain ⟨d, s', hd⟩ := this
      unfold wrFinish
      rw [hd]
      have hlt : ¬ w.udata.length < w.ulen := by
        rw [hi.hulen, hi.udata, List.length_take]; omega
      simp only [if_neg hlt]
      exact ⟨_, rfl⟩
    · rw [List.nil_append] at k1
      rw [hE qs k1 k2] at k3
      cases k3
  obtain ⟨⟨d, f⟩, hr⟩ := hok
  obtain ⟨_, rfl, ps, y, a1, a2, a3, rfl⟩ := C27_prefix_verbatim E ulen f0 bs d f hr
  rw [hE ps a1 a2] at a3
  cases a3
  exact hr

theorem encodeAll_plain (ps : List Bytes) : encodeAll plainEnc () ps = some ps.flatten := by
  induction ps with
  | nil => rfl
  | cons p ps ih => simp only [encodeAll, plainEnc] at ih ⊢; rw [ih]; rfl

/-! ## What the altered archive of a package comes with -/

/-- Offset adjustments that the delta format can hold. -/
def AdjOk (l : List (Nat × Nat)) : Prop := Words l ∧ ∀ p ∈ l, p.2 ≠ 2^31

theorem AdjOk.snoc {l : List (Nat × Nat)} (h : AdjOk l) {a b : Nat} (ha : a < 2^32) (hb : b < 2^32) (hn : b ≠ 2^31) :
    AdjOk (l ++ [(a, b)]) := by
  refine ⟨fun p hp => ?_, fun p hp => ?_⟩
  · rw [List.mem_append, List.mem_singleton] at hp
    rcases hp with hp | rfl
    · exact h.1 p hp
    · exact ⟨ha, hb⟩
  · rw [List.mem_append, List.mem_singleton] at hp
    rcases hp with hp | rfl
    · exact h.2 p hp
    · exact hn

theorem twosComplement32_ok {x : Nat} (h : x < 2^31) : twosComplement32 x < 2^32 ∧ twosComplement32 x ≠ 2^31 := by
  unfold twosComplement32
  omega

theorem offadjLoop_ok (len : Nat) : ∀ (fuel prev pos : Nat) (adjs r : List (Nat × Nat)) (l : Nat),
    offadjLoop len fuel prev pos adjs = .ok (r, l) → AdjOk adjs → AdjOk r := by
  intro fuel
  induction fuel with
  | zero => intro _ _ _ _ _ h; cases h
  | succ fuel ih =>
    intro prev pos adjs r l h ha
    rw [offadjLoop] at h
    have hg : (len + 2^64 - prev) % 2^64 % 2^32 < 2^32 := Nat.mod_lt _ (by omega)
    generalize hgap : (len + 2^64 - prev) % 2^64 % 2^32 = gap at h hg
    split at h
    · exact ih _ _ _ _ _ h (ha.snoc (by omega) (by omega) (by omega))
    · split at h
      · split at h
        · obtain ⟨t1, t2⟩ := twosComplement32_ok (x := 2^31 - 1) (by omega)
          exact ih _ _ _ _ _ h (ha.snoc hg t1 t2)
        · obtain ⟨t1, t2⟩ := twosComplement32_ok (x := len - pos) (by omega)
          cases h
          exact ha.snoc hg t1 t2
      · split at h
        · exact ih _ _ _ _ _ h (ha.snoc hg (by omega) (by omega))
        · cases h
          exact ha.snoc hg (by omega) (by omega)

theorem adjust_ok {m : MakeIn} {st : MkSt} {p : Nat} {r : List (Nat × Nat)} {l : Nat}
    (h : adjust m st p = .ok (r, l)) :
    (AdjOk st.offadjs → AdjOk r) ∧ (m.offadj = false → r = st.offadjs) := by
  unfold adjust at h
  split at h
  · rename_i hc
    exact ⟨fun ha => offadjLoop_ok _ _ _ _ _ _ _ h ha, fun hf => by rw [hf] at hc; simp at hc⟩
  · cases h
    exact ⟨id, fun _ => rfl⟩

theorem run_adjOk {m : MakeIn} (hf : FilesFit m) {st st' : MkSt} {es : List AEnt} (h : Run m st es st') :
    (AdjOk st.offadjs → AdjOk st'.offadjs) ∧ (m.offadj = false → st'.offadjs = st.offadjs) := by
  induction h with
  | done h1 h2 h3 h4 => rw [h4]; exact ⟨id, fun _ => rfl⟩
  | @step st st1 st' e es hat hs hdata _ ih =>
    cases hk : keepFile m e.name e.size with
    | none =>
      obtain ⟨_, _, _, _, s5, _⟩ := hs.skip hk
      rw [s5] at ih
      exact ih
    | some p =>
      obtain ⟨i, f⟩ := p
      obtain ⟨_, _, _, ⟨stx, x1, x2, x3, x4⟩, _⟩ := hs.keep i f hk (keepFile_fits hf hk)
      obtain ⟨a1, a2⟩ := adjust_ok x4
      rw [x3] at a1 a2
      exact ⟨fun ha => ih.1 (a1 ha), fun hn => by rw [ih.2 hn, a2 hn]⟩

theorem makeCpio_facts {H : Bytes → Bytes} (hH : ∀ b, (H b).length = 16) {m : MakeIn} {r : Made}
    (hl : m.archive.length < 2^63) (hf : FilesFit m) (h : makeCpio H m = .ok r) :
    AdjOk r.offadjs ∧ (m.offadj = false → r.offadjs = []) ∧ 16 ≤ r.sequence.length ∧
    r.sequence.length < 2^32 ∧ 0 < r.cpio.length := by
  obtain ⟨es, md, s, e1, e2, e3, e4, e5, st, e6, e7⟩ := makeCpio_spec hl hf h
  obtain ⟨a1, a2⟩ := run_adjOk hf e6
  refine ⟨by rw [e7]; exact a1 ⟨fun _ h => absurd h (by simp), fun _ h => absurd h (by simp)⟩,
    fun hn => by rw [e7, a2 hn], by rw [e5, List.length_append, hH]; omega, ?_, ?_⟩
  · unfold makeCpio at h
    rw [Out.bind_eq_ok] at h
    obtain ⟨st, h1, h⟩ := h
    unfold mkFinish at h
    rw [Out.bind_eq_ok] at h
    obtain ⟨c1, g1, h⟩ := h
    rw [Out.bind_eq_ok] at h
    obtain ⟨c2, g2, h⟩ := h
    rw [Out.bind_eq_ok] at h
    obtain ⟨c3, g3, h⟩ := h
    rw [Out.bind_eq_ok] at h
    obtain ⟨s, g4, h⟩ := h
    split at h
    · cases h
    · cases h
      simp only [List.length_append, hH]
      omega
  · rw [e2]
    have : 0 < trailerBytes.length := by decide +kernel
    simp only [altered, List.length_append]
    omega

end Drpm
