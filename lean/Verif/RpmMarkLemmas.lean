import Verif.RpmFileLemmas
/-!
# Lemmas about marking headers and about new signatures
-/

namespace Drpm

variable {η : Type} {lib : Rpmlib η} {Ok : TagData → Prop}

theorem not_region {t : Nat} (h : t < 61 ∨ 63 < t) : ¬ IsRegion t := by unfold IsRegion; omega

/-- Copying entries into a header that has none of them. -/
theorem copyEntries_spec (hl : HeaderLaws lib Ok) : ∀ (es : List (Nat × TagData)) (s : η),
    (∀ e ∈ es, ¬ IsRegion e.1 ∧ Ok e.2 ∧ e.1 < 2^32 ∧ lib.get s e.1 = none) → es.Pairwise (fun a b => a.1 ≠ b.1) →
    (∀ t d, ¬ IsRegion t → (lib.get (copyEntries lib s es) t = some d ↔ (t, d) ∈ es ∨ lib.get s t = some d)) ∧
    (∀ R, IsRegion R → lib.get s R = none → lib.get (copyEntries lib s es) R = none) := by
  intro es
  induction es with
  | nil => intro s _ _; exact ⟨fun t d _ => by simp [copyEntries], fun R _ h => h⟩
  | cons e es ih =>
    intro s he hd
    obtain ⟨t, d⟩ := e
    rw [List.pairwise_cons] at hd
    obtain ⟨e1, e2, e3, e4⟩ := he (t, d) List.mem_cons_self
    obtain ⟨s', p1, p2, p3⟩ := hl.put s t d e4 e1 e2 e3
    rw [copyEntries, p1, Option.getD_some]
    have hes : ∀ e ∈ es, ¬ IsRegion e.1 ∧ Ok e.2 ∧ e.1 < 2^32 ∧ lib.get s' e.1 = none := by
      intro e hm
      obtain ⟨f1, f2, f3, f4⟩ := he e (List.mem_cons_of_mem _ hm)
      refine ⟨f1, f2, f3, ?_⟩
      rw [p2 e.1 f1, if_neg (fun h => hd.1 e hm h.symm)]
      exact f4
    obtain ⟨i1, i2⟩ := ih s' hes hd.2
    refine ⟨fun t' d' hr => ?_, fun R hR hn => i2 R hR (p3 R hR hn)⟩
    rw [i1 t' d' hr, p2 t' hr, List.mem_cons]
    by_cases ht : t' = t
    · subst ht
      rw [if_pos rfl, e4]
      simp only [Option.some.injEq, Prod.mk.injEq, true_and]
      constructor
      · rintro (h | h)
        · exact Or.inl (Or.inr h)
        · exact Or.inl (Or.inl h.symm)
      · rintro ((h | h) | h)
        · exact Or.inr h.symm
        · exact Or.inl h
        · cases h
    · rw [if_neg ht]
      simp [Prod.mk.injEq, ht]

/-- Taking the region out of a sealed header. -/
theorem unloadRegion_of (hl : HeaderLaws lib Ok) {h0 h : η} (hr : lib.reload h0 63 = some h) :
    ∃ u, unloadRegion lib h 63 = .ok u ∧ SameTags lib h u ∧ ∀ R, IsRegion R → lib.get u R = none := by
  obtain ⟨s1, b, g, g1, g2, g3⟩ := hl.region h0 63 h (Or.inr rfl) hr
  unfold unloadRegion
  rw [g1]
  simp only
  rw [g2]
  simp only
  have hes : ∀ e ∈ lib.entries g, ¬ IsRegion e.1 ∧ Ok e.2 ∧ e.1 < 2^32 ∧ lib.get lib.new e.1 = none := by
    rintro ⟨t, d⟩ hm
    obtain ⟨m1, m2⟩ := (hl.entries g t d).1 hm
    exact ⟨m2, (hl.stored g t d m1 m2).1, (hl.stored g t d m1 m2).2, hl.new t⟩
  obtain ⟨c1, c2⟩ := copyEntries_spec hl (lib.entries g) lib.new hes (hl.distinct g)
  refine ⟨_, rfl, fun t ht => ?_, fun R hR => c2 R hR (hl.new R)⟩
  have e1 : lib.get (copyEntries lib lib.new (lib.entries g)) t = lib.get g t := by
    refine Option.ext (fun d => ?_)
    rw [c1 t d ht, hl.entries, hl.new]
    simp [ht]
  rw [e1, g3 t ht, s1 t ht]

/-- Marking a sealed header. -/
theorem patchFormat_of (hl : HeaderLaws lib Ok) {h0 h : η} (hr : lib.reload h0 63 = some h) (s fmt : Bytes)
    (hs : lib.get h 1124 = some (.str s)) (hlen : s.length = fmt.length) (hok : Ok (.str fmt)) :
    ∃ m u, patchFormat lib h fmt = .ok m ∧ lib.get u 63 = none ∧ lib.reload u 63 = some m ∧
      WithTag lib h 1124 (some (.str fmt)) u := by
  have n63 : IsRegion 63 := by unfold IsRegion; omega
  have n1124 : ¬ IsRegion 1124 := not_region (by omega)
  obtain ⟨u, u1, u2, u3⟩ := unloadRegion_of hl hr
  have s1 := (hl.region h0 63 h (Or.inr rfl) hr).1
  obtain ⟨v, v1, v2, v3⟩ := hl.del u 1124 (.str s) (by rw [u2 _ n1124, hs]) n1124
  obtain ⟨w, w1, w2, w3⟩ := hl.put v 1124 (.str fmt) (by rw [v2 _ n1124, if_pos rfl]) n1124 hok (by omega)
  have hw : WithTag lib h 1124 (some (.str fmt)) w := by
    intro t ht
    rw [w2 t ht]
    by_cases e : t = 1124
    · rw [if_pos e, if_pos e]
    · rw [if_neg e, if_neg e, v2 t ht, if_neg e, u2 t ht]
  have hn : lib.get w 63 = none := w3 63 n63 (v3 63 n63 (u3 63 n63))
  have hroom := hl.room h0 63 1124 s fmt w (by rw [hr]; exact fun e => by cases e) hlen (by rw [← s1 _ n1124, hs]) n1124 hok hn
    (fun t ht => by
      rw [hw t ht]
      by_cases e : t = 1124
      · rw [if_pos e, if_pos e]
      · rw [if_neg e, if_neg e, s1 t ht])
  rcases hm : lib.reload w 63 with _ | m
  · exact absurd hm hroom
  · refine ⟨m, w, ?_, hn, hm, hw⟩
    unfold patchFormat
    rw [u1, Out.bind_ok, v1]
    simp only
    rw [w1]
    simp only
    rw [hm]

/-- A new signature. -/
theorem newSignature_of (hl : HeaderLaws lib Ok) (size : Nat) (md5 : Bytes) (h16 : md5.length = 16) :
    ∃ s b, newSignature lib size md5 = .ok s ∧ OnDisk lib s b ∧ lib.get s 1000 = some (.u32 [size % 2^32]) ∧
      lib.get s 1004 = some (.bin md5) := by
  have n1000 : ¬ IsRegion 1000 := not_region (by omega)
  have n1004 : ¬ IsRegion 1004 := not_region (by omega)
  have hs : size % 2^32 < 2^32 := Nat.mod_lt _ (by omega)
  obtain ⟨a, a1, a2, a3⟩ := hl.put lib.new 1000 (.u32 [size % 2^32]) (hl.new _) n1000 (hl.okSize _ hs) (by omega)
  obtain ⟨b, b1, b2, b3⟩ := hl.put a 1004 (.bin md5) (by rw [a2 _ n1004, if_neg (by omega), hl.new]) n1004 (hl.okMd5 _ h16) (by omega)
  have hb : ∀ t, ¬ IsRegion t → lib.get b t = if t = 1000 then some (.u32 [size % 2^32]) else if t = 1004 then some (.bin md5) else none := by
    intro t ht
    rw [b2 t ht, a2 t ht]
    by_cases e : t = 1004
    · subst e; rw [if_pos rfl, if_neg (by omega), if_pos rfl]
    · rw [if_neg e]
      by_cases e' : t = 1000
      · rw [if_pos e', if_pos e']
      · rw [if_neg e', if_neg e', if_neg e, hl.new]
  have hroom := hl.roomSig b (size % 2^32) md5 hs h16 (fun R hR => b3 R hR (a3 R hR (hl.new R))) hb
  rcases hm : lib.reload b 62 with _ | m
  · exact absurd hm hroom
  · obtain ⟨bl, d1, _⟩ := hl.disk b 62 m (Or.inl rfl) hm
    have r1 := (hl.region b 62 m (Or.inl rfl) hm).1
    refine ⟨m, bl, ?_, d1, ?_, ?_⟩
    · unfold newSignature
      simp only [a1, Option.getD_some, b1, hm]
    · rw [r1 _ n1000, hb _ n1000, if_pos rfl]
    · rw [r1 _ n1004, hb _ n1004, if_neg (by omega), if_pos rfl]

end Drpm
