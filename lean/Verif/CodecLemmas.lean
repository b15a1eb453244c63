import Verif.CodecSpec
import Verif.StrmLemmas
/-!
# Lemmas about the loops around the compression libraries
-/

namespace Drpm

theorem prefix_split {a b : Bytes} (h : a <+: b) : b = a ++ b.drop a.length := by
  obtain ⟨t, rfl⟩ := h
  simp

theorem prefix_drop {a b : Bytes} (h : a <+: b) (n : Nat) (hn : n ≤ a.length) : a.drop n <+: b.drop n := by
  obtain ⟨t, rfl⟩ := h
  rw [List.drop_append_of_le_length hn]
  exact List.prefix_append _ _

theorem chunkSize_pos : 0 < chunkSize := by decide

/-- The loop for zlib, bzip2 and liblzma uses up the piece it is given; at the end of the stream
    everything has been put out. -/
theorem roomLoop_inflates {σ ρ : Type} {call : LibCall σ ρ} {fine : ρ → Prop} {R : σ → Bytes → Bytes → Prop}
    (h : Inflates call fine R) {verdict : ρ → Option Err} (hv : ∀ c, fine c → verdict c = none) :
    ∀ fuel s z p inp acc, R s z p → inp <+: z → p.length < fuel →
      ∃ s' o, roomLoop call verdict fuel s inp acc = .ok (s', acc ++ o, none) ∧ o <+: p ∧
        R s' (z.drop inp.length) (p.drop o.length) ∧ (z.drop inp.length = [] → p.drop o.length = []) := by
  intro fuel
  induction fuel with
  | zero => intro s z p inp acc _ _ hf; omega
  | succ fuel ih =>
    intro s z p inp acc hR hp hf
    have h1 := hv _ (h.code s z p inp chunkSize hR hp chunkSize_pos)
    have h2 := h.used s z p inp chunkSize hR hp chunkSize_pos
    have h3 := h.room s z p inp chunkSize hR hp chunkSize_pos
    have h4 := h.out s z p inp chunkSize hR hp chunkSize_pos
    have h5 := h.next s z p inp chunkSize hR hp chunkSize_pos
    have h6 := h.stops s z p inp chunkSize hR hp chunkSize_pos
    have h7 := h.complete s z p inp chunkSize hR hp chunkSize_pos
    rw [roomLoop]
    generalize call s inp chunkSize = r at *
    rw [h1]
    simp only
    by_cases hfull : chunkSize - r.out.length = 0
    · rw [if_pos hfull]
      have hl := h4.length_le
      have hc := chunkSize_pos
      obtain ⟨s', o, g1, g2, g3, g4⟩ := ih r.st (z.drop r.used) (p.drop r.out.length) (inp.drop r.used) (acc ++ r.out) h5
        (prefix_drop hp _ h2) (by rw [List.length_drop]; omega)
      refine ⟨s', r.out ++ o, ?_, ?_, ?_, ?_⟩
      · rw [g1, List.append_assoc]
      · rw [prefix_split h4]
        exact (List.prefix_append_right_inj r.out).mpr g2
      · rw [List.length_drop, List.drop_drop, List.drop_drop] at g3
        rw [List.length_append]
        rw [show r.used + (inp.length - r.used) = inp.length by omega] at g3
        exact g3
      · rw [List.length_drop, List.drop_drop, List.drop_drop] at g4
        rw [List.length_append]
        rw [show r.used + (inp.length - r.used) = inp.length by omega] at g4
        exact g4
    · rw [if_neg hfull]
      have hu := h6 (by omega)
      rw [hu] at h5
      exact ⟨r.st, r.out, rfl, h4, h5, fun hz => h7 (by omega) (by rw [hu]; exact hz)⟩

/-- The loop for zstd uses up the piece it is given. -/
theorem inputLoop_inflates {σ : Type} {call : LibCall σ ZstdCode} {R : σ → Bytes → Bytes → Prop}
    (h : ZstdInflates call R) {room : Nat} (hroom : 0 < room) :
    ∀ fuel s z p inp acc, R s z p → inp <+: z → inp.length + p.length < fuel →
      ∃ s' o, inputLoop call room fuel s inp acc = .ok (s', acc ++ o, none) ∧ o <+: p ∧
        R s' (z.drop inp.length) (p.drop o.length) := by
  intro fuel
  induction fuel with
  | zero => intro s z p inp acc _ _ hf; omega
  | succ fuel ih =>
    intro s z p inp acc hR hp hf
    rw [inputLoop]
    by_cases he : inp.length = 0
    · rw [if_pos he]
      have : inp = [] := List.length_eq_zero_iff.mp he
      subst this
      exact ⟨s, [], by simp, List.nil_prefix, hR⟩
    · rw [if_neg he]
      have hne : inp ≠ [] := fun h => he (by rw [h]; rfl)
      have h1 := h.code s z p inp room hR hp hroom
      have h2 := h.used s z p inp room hR hp hroom
      have h4 := h.out s z p inp room hR hp hroom
      have h5 := h.next s z p inp room hR hp hroom
      have h6 := h.progress s z p inp room hR hp hroom hne
      generalize call s inp room = r at *
      have hv : zstdVerdict r.ret = none := by
        cases hr : r.ret with
        | error => exact absurd hr h1
        | hint n => rfl
      rw [hv]
      simp only
      have hl := h4.length_le
      have hprog : 0 < r.used ∨ 0 < r.out.length := h6.imp id List.length_pos_iff.mpr
      obtain ⟨s', o, g1, g2, g3⟩ := ih r.st (z.drop r.used) (p.drop r.out.length) (inp.drop r.used) (acc ++ r.out) h5
        (prefix_drop hp _ h2) (by rw [List.length_drop, List.length_drop]; omega)
      refine ⟨s', r.out ++ o, ?_, ?_, ?_⟩
      · rw [g1, List.append_assoc]
      · rw [prefix_split h4]
        exact (List.prefix_append_right_inj r.out).mpr g2
      · rw [List.length_drop, List.drop_drop, List.drop_drop] at g3
        rw [List.length_append]
        rw [show r.used + (inp.length - r.used) = inp.length by omega] at g3
        exact g3

/-- Reading all pieces of a stream with a loop that uses up each piece. `E` tells what holds when
    the stream is at its end. -/
theorem readPieces_ok {σ : Type} {E : Bytes → Prop} {run : σ → Bytes → Out (σ × Bytes × Option Err)} {R : σ → Bytes → Bytes → Prop}
    (hrun : ∀ s z p b, R s z p → b <+: z → b ≠ [] → b.length ≤ z.length →
      ∃ s' o, run s b = .ok (s', o, none) ∧ o <+: p ∧ R s' (z.drop b.length) (p.drop o.length) ∧
        (z.drop b.length = [] → E (p.drop o.length))) :
    ∀ (pieces : List Bytes) (s : UnpackSt σ) z p, R s.lib z p → pieces.flatten = z → [] ∉ pieces → (z = [] → E p) →
      s.compSize + z.length < 2^64 →
      ∃ ev s' o, readPieces run s pieces = .ok (ev, s') ∧ Clean ev ∧ (ev.map (·.1)).flatten = o ∧ o <+: p ∧
        R s'.lib [] (p.drop o.length) ∧ E (p.drop o.length) ∧ s'.compSize = s.compSize + z.length ∧ s'.md5 = s.md5 ++ z := by
  intro pieces
  induction pieces with
  | nil =>
    intro s z p hR hz _ hE hcs
    simp only [List.flatten_nil] at hz
    subst hz
    exact ⟨[], s, [], rfl, (fun x hx => by cases hx), rfl, List.nil_prefix, hR, hE rfl, by simp, by simp⟩
  | cons b bs ih =>
    intro s z p hR hz hne hE hcs
    rw [List.flatten_cons] at hz
    have hb : b ≠ [] := fun h => hne (by rw [h]; exact List.mem_cons_self)
    have hbz : b <+: z := ⟨bs.flatten, hz⟩
    have hzd : z.drop b.length = bs.flatten := by rw [← hz]; simp
    obtain ⟨s1, o1, g1, g2, g3, g4⟩ := hrun s.lib z p b hR hbz hb hbz.length_le
    rw [hzd] at g3 g4
    have hlen : z.length = b.length + bs.flatten.length := by rw [← hz, List.length_append]
    have hmod : (s.compSize + b.length) % 2^64 = s.compSize + b.length := Nat.mod_eq_of_lt (by omega)
    obtain ⟨ev, s', o, k1, k2, k3, k4, k5, k6, k7, k8⟩ :=
      ih ⟨s1, s.compSize + b.length, s.md5 ++ b⟩ bs.flatten (p.drop o1.length) g3 rfl
        (fun h => hne (List.mem_cons_of_mem _ h)) g4 (by simp only; omega)
    refine ⟨(o1, none) :: ev, s', o1 ++ o, ?_, ?_, ?_, ?_, ?_, ?_, ?_, ?_⟩
    · rw [readPieces]
      unfold readPiece
      rw [g1, Out.bind_ok]
      simp only [Out.bind_ok, hmod]
      rw [k1, Out.bind_ok]
    · intro x hx
      rcases List.mem_cons.mp hx with rfl | hx
      · rfl
      · exact k2 x hx
    · simp only [List.map_cons, List.flatten_cons, k3]
    · rw [prefix_split g2]
      exact (List.prefix_append_right_inj o1).mpr k4
    · rw [List.length_append, ← List.drop_drop]
      exact k5
    · rw [List.length_append, ← List.drop_drop]
      exact k6
    · rw [k7]
      simp only
      omega
    · rw [k8, ← hz, List.append_assoc]

theorem prefix_all {o p : Bytes} (h : o <+: p) (he : p.drop o.length = []) : o = p := by
  have := prefix_split h
  rw [he, List.append_nil] at this
  exact this.symm

/-! ## lzip -/

theorem lzPiece_inflates {σ : Type} {L : LzDec σ} {R : σ → Bytes → Bytes → Bool → Prop} (h : LzInflates L R) :
    ∀ fuel s z p inp acc, R s z p false → inp <+: z → inp.length + p.length < fuel →
      ∃ s' o, lzPiece L fuel s inp acc = .ok (s', acc ++ o, none) ∧ o <+: p ∧
        R s' (z.drop inp.length) (p.drop o.length) false := by
  intro fuel
  induction fuel with
  | zero => intro s z p inp acc _ _ hf; omega
  | succ fuel ih =>
    intro s z p inp acc hR hp hf
    rw [lzPiece]
    by_cases he : inp.length = 0
    · rw [if_pos he]
      have : inp = [] := List.length_eq_zero_iff.mp he
      subst this
      exact ⟨s, [], by simp, List.nil_prefix, hR⟩
    · rw [if_neg he]
      have hne : inp ≠ [] := fun h => he (by rw [h]; rfl)
      have hfeed : ∃ s1 k, lzFeed L s inp = some (s1, k) ∧ k ≤ inp.length ∧ R s1 (z.drop k) p false ∧
          (k = 0 → s1 = s ∧ L.writeSize s = 0) := by
        unfold lzFeed
        by_cases hw : L.writeSize s > 0
        · rw [if_pos hw]
          obtain ⟨s1, k, a1, a2, a3, a4⟩ := h.write s z p inp hR hp hne hw
          exact ⟨s1, k, a1, a3, a4, fun hk => by omega⟩
        · rw [if_neg hw]
          exact ⟨s, 0, rfl, Nat.zero_le _, hR, fun _ => ⟨rfl, by omega⟩⟩
      obtain ⟨s1, k, f1, f2, f3, f4⟩ := hfeed
      rw [f1]
      simp only
      obtain ⟨s2, o1, r1, _, r3, r4, r5⟩ := h.read s1 (z.drop k) p chunkSize f3 chunkSize_pos
      rw [r1]
      simp only
      have hl := r3.length_le
      have hprog : 0 < k ∨ 0 < o1.length := by
        by_cases hk : k = 0
        · obtain ⟨e1, e2⟩ := f4 hk
          exact Or.inr (List.length_pos_iff.mpr (r5 (by rw [e1]; exact e2)))
        · exact Or.inl (by omega)
      obtain ⟨s', o, g1, g2, g3⟩ := ih s2 (z.drop k) (p.drop o1.length) (inp.drop k) (acc ++ o1) r4
        (prefix_drop hp _ f2) (by rw [List.length_drop, List.length_drop]; omega)
      refine ⟨s', o1 ++ o, ?_, ?_, ?_⟩
      · rw [g1, List.append_assoc]
      · rw [prefix_split r3]
        exact (List.prefix_append_right_inj o1).mpr g2
      · rw [List.length_drop, List.drop_drop, List.drop_drop] at g3
        rw [List.length_append]
        rw [show k + (inp.length - k) = inp.length by omega] at g3
        exact g3

theorem lzRest_inflates {σ : Type} {L : LzDec σ} {R : σ → Bytes → Bytes → Bool → Prop} (h : LzInflates L R) :
    ∀ fuel s p acc, R s [] p true → p.length < fuel →
      ∃ s', lzRest L fuel s acc = .ok (s', acc ++ p, none) := by
  intro fuel
  induction fuel with
  | zero => intro s p acc _ hf; omega
  | succ fuel ih =>
    intro s p acc hR hf
    rw [lzRest]
    obtain ⟨s1, o, r1, _, r3, r4, r5, r6⟩ := h.rest s p chunkSize hR chunkSize_pos
    rw [r1]
    simp only
    cases hfin : L.finished s1 with
    | true =>
      rw [if_pos rfl]
      have := prefix_all r3 (r5 hfin)
      subst this
      exact ⟨s1, rfl⟩
    | false =>
      rw [if_neg (by decide)]
      have hpos := List.length_pos_iff.mpr (r6 hfin)
      have hl := r3.length_le
      obtain ⟨s', g⟩ := ih s1 (p.drop o.length) (acc ++ o) r4 (by rw [List.length_drop]; omega)
      refine ⟨s', ?_⟩
      rw [g, List.append_assoc, ← prefix_split r3]

/-! ## Compression -/

theorem roomLoop_deflates {σ ρ : Type} {call : LibCall σ ρ} {fine : ρ → Prop} {B : Nat → Nat}
    {R : σ → Bytes → Bytes → Prop} (h : Deflates call fine B R) (hB : ∀ a b, a ≤ b → B a ≤ B b)
    {verdict : ρ → Option Err} (hv : ∀ c, fine c → verdict c = none) :
    ∀ fuel s x y inp acc, R s x y → B (x.length + inp.length) - y.length < fuel →
      ∃ s' o, roomLoop call verdict fuel s inp acc = .ok (s', acc ++ o, none) ∧ R s' (x ++ inp) (y ++ o) := by
  intro fuel
  induction fuel with
  | zero => intro s x y inp acc _ hf; omega
  | succ fuel ih =>
    intro s x y inp acc hR hf
    have h1 := hv _ (h.code s x y inp chunkSize hR chunkSize_pos)
    have h2 := h.used s x y inp chunkSize hR chunkSize_pos
    have h3 := h.room s x y inp chunkSize hR chunkSize_pos
    have h5 := h.next s x y inp chunkSize hR chunkSize_pos
    have h6 := h.stops s x y inp chunkSize hR chunkSize_pos
    rw [roomLoop]
    generalize call s inp chunkSize = r at *
    rw [h1]
    simp only
    by_cases hfull : chunkSize - r.out.length = 0
    · rw [if_pos hfull]
      have hb := h.bound _ _ _ h5
      rw [List.length_append, List.length_append, List.length_take] at hb
      have hm := hB (x.length + min r.used inp.length) (x.length + inp.length) (by omega)
      have hc := chunkSize_pos
      obtain ⟨s', o, g1, g2⟩ := ih r.st (x ++ inp.take r.used) (y ++ r.out) (inp.drop r.used) (acc ++ r.out) h5 (by
        rw [List.length_append, List.length_append, List.length_take, List.length_drop,
          show x.length + min r.used inp.length + (inp.length - r.used) = x.length + inp.length by omega]
        omega)
      refine ⟨s', r.out ++ o, ?_, ?_⟩
      · rw [g1, List.append_assoc]
      · rw [List.append_assoc, List.take_append_drop, List.append_assoc] at g2
        exact g2
    · rw [if_neg hfull]
      have hu := h6 (by omega)
      rw [hu, List.take_length] at h5
      exact ⟨r.st, r.out, rfl, h5⟩

theorem inputLoop_deflates {σ : Type} {call : LibCall σ ZstdCode} {fine : ZstdCode → Prop} {B : Nat → Nat}
    {R : σ → Bytes → Bytes → Prop} (h : Deflates call fine B R) (hB : ∀ a b, a ≤ b → B a ≤ B b)
    (hv : ∀ c, fine c → zstdVerdict c = none) {room : Nat} (hroom : 0 < room) :
    ∀ fuel s x y inp acc, R s x y → inp.length + (B (x.length + inp.length) - y.length) < fuel →
      ∃ s' o, inputLoop call room fuel s inp acc = .ok (s', acc ++ o, none) ∧ R s' (x ++ inp) (y ++ o) := by
  intro fuel
  induction fuel with
  | zero => intro s x y inp acc _ hf; omega
  | succ fuel ih =>
    intro s x y inp acc hR hf
    rw [inputLoop]
    by_cases he : inp.length = 0
    · rw [if_pos he]
      have : inp = [] := List.length_eq_zero_iff.mp he
      subst this
      exact ⟨s, [], by simp, by simpa using hR⟩
    · rw [if_neg he]
      have h1 := hv _ (h.code s x y inp room hR hroom)
      have h2 := h.used s x y inp room hR hroom
      have h3 := h.room s x y inp room hR hroom
      have h5 := h.next s x y inp room hR hroom
      have h6 := h.stops s x y inp room hR hroom
      generalize call s inp room = r at *
      rw [h1]
      simp only
      have hb := h.bound _ _ _ h5
      rw [List.length_append, List.length_append, List.length_take] at hb
      have hm := hB (x.length + min r.used inp.length) (x.length + inp.length) (by omega)
      have hprog : 0 < r.used ∨ 0 < r.out.length := by
        by_cases hr : r.out.length < room
        · have := h6 hr
          omega
        · omega
      obtain ⟨s', o, g1, g2⟩ := ih r.st (x ++ inp.take r.used) (y ++ r.out) (inp.drop r.used) (acc ++ r.out) h5 (by
        rw [List.length_append, List.length_append, List.length_take, List.length_drop,
          show x.length + min r.used inp.length + (inp.length - r.used) = x.length + inp.length by omega]
        omega)
      refine ⟨s', r.out ++ o, ?_, ?_⟩
      · rw [g1, List.append_assoc]
      · rw [List.append_assoc, List.take_append_drop, List.append_assoc] at g2
        exact g2

theorem finLoop_finishes {σ ρ : Type} {call : σ → Nat → LibStep σ ρ} {fine : ρ → Prop} {done : ρ → Nat → Prop} {room : Nat}
    {B : Nat → Nat} {Valid : Bytes → Bytes → Prop} {F : σ → Bytes → Bytes → Prop}
    (h : Finishes call fine done room B Valid F) {verdict : ρ → Option Err} (hv : ∀ c, fine c → verdict c = none)
    {stop : ρ → Nat → Bool} (hs : ∀ s x y, F s x y → (stop (call s room).ret (call s room).out.length = true ↔
      done (call s room).ret (call s room).out.length)) :
    ∀ fuel s x y acc, F s x y → B x.length - y.length < fuel →
      ∃ o, finLoop call verdict stop room fuel s acc = .ok (acc ++ o, none) ∧ Valid x (y ++ o) := by
  intro fuel
  induction fuel with
  | zero => intro s x y acc _ hf; omega
  | succ fuel ih =>
    intro s x y acc hF hf
    have h1 := hv _ (h.code s x y hF)
    have h2 := h.next s x y hF
    have h3 := h.valid s x y hF
    have h4 := h.progress s x y hF
    have h5 := hs s x y hF
    rw [finLoop]
    generalize call s room = r at *
    rw [h1]
    simp only
    by_cases hd : stop r.ret r.out.length = true
    · rw [if_pos hd]
      exact ⟨r.out, rfl, h3 (h5.mp hd)⟩
    · rw [if_neg hd]
      have hpos := List.length_pos_iff.mpr (h4 (fun hh => hd (h5.mpr hh)))
      have hb := h.bound _ _ _ h2
      rw [List.length_append] at hb
      obtain ⟨o, g1, g2⟩ := ih r.st x (y ++ r.out) (acc ++ r.out) h2 (by rw [List.length_append]; omega)
      exact ⟨r.out ++ o, by rw [g1, List.append_assoc], by rw [← List.append_assoc]; exact g2⟩

theorem lzPiece_deflates {σ : Type} {L : LzDec σ} {B : Nat → Nat} {Valid : Bytes → Bytes → Prop}
    {R : σ → Bytes → Bytes → Bool → Prop} (h : LzDeflates L B Valid R) (hB : ∀ a b, a ≤ b → B a ≤ B b) :
    ∀ fuel s x y inp acc, R s x y false → inp.length + (B (x.length + inp.length) - y.length) < fuel →
      ∃ s' o, lzPiece L fuel s inp acc = .ok (s', acc ++ o, none) ∧ R s' (x ++ inp) (y ++ o) false := by
  intro fuel
  induction fuel with
  | zero => intro s x y inp acc _ hf; omega
  | succ fuel ih =>
    intro s x y inp acc hR hf
    rw [lzPiece]
    by_cases he : inp.length = 0
    · rw [if_pos he]
      have : inp = [] := List.length_eq_zero_iff.mp he
      subst this
      exact ⟨s, [], by simp, by simpa using hR⟩
    · rw [if_neg he]
      have hne : inp ≠ [] := fun h => he (by rw [h]; rfl)
      have hfeed : ∃ s1 k, lzFeed L s inp = some (s1, k) ∧ k ≤ inp.length ∧ R s1 (x ++ inp.take k) y false ∧
          (k = 0 → s1 = s ∧ L.writeSize s = 0) := by
        unfold lzFeed
        by_cases hw : L.writeSize s > 0
        · rw [if_pos hw]
          obtain ⟨s1, k, a1, a2, a3, a4⟩ := h.write s x y inp hR hne hw
          exact ⟨s1, k, a1, a3, a4, fun hk => by omega⟩
        · rw [if_neg hw]
          exact ⟨s, 0, rfl, Nat.zero_le _, by simpa using hR, fun _ => ⟨rfl, by omega⟩⟩
      obtain ⟨s1, k, f1, f2, f3, f4⟩ := hfeed
      rw [f1]
      simp only
      obtain ⟨s2, o1, r1, r2, r3⟩ := h.read s1 _ y chunkSize f3 chunkSize_pos
      rw [r1]
      simp only
      have hprog : 0 < k ∨ 0 < o1.length := by
        by_cases hk : k = 0
        · obtain ⟨e1, e2⟩ := f4 hk
          exact Or.inr (List.length_pos_iff.mpr (r3 (by rw [e1]; exact e2)))
        · exact Or.inl (by omega)
      have hb := h.bound _ _ _ _ r2
      rw [List.length_append, List.length_append, List.length_take] at hb
      have hm := hB (x.length + min k inp.length) (x.length + inp.length) (by omega)
      obtain ⟨s', o, g1, g2⟩ := ih s2 (x ++ inp.take k) (y ++ o1) (inp.drop k) (acc ++ o1) r2 (by
        rw [List.length_append, List.length_append, List.length_take, List.length_drop,
          show x.length + min k inp.length + (inp.length - k) = x.length + inp.length by omega]
        omega)
      refine ⟨s', o1 ++ o, ?_, ?_⟩
      · rw [g1, List.append_assoc]
      · rw [List.append_assoc, List.take_append_drop, List.append_assoc] at g2
        exact g2

theorem lzRest_deflates {σ : Type} {L : LzDec σ} {B : Nat → Nat} {Valid : Bytes → Bytes → Prop}
    {R : σ → Bytes → Bytes → Bool → Prop} (h : LzDeflates L B Valid R) :
    ∀ fuel s x y acc, R s x y true → B x.length - y.length < fuel →
      ∃ s' o, lzRest L fuel s acc = .ok (s', acc ++ o, none) ∧ Valid x (y ++ o) := by
  intro fuel
  induction fuel with
  | zero => intro s x y acc _ hf; omega
  | succ fuel ih =>
    intro s x y acc hR hf
    rw [lzRest]
    obtain ⟨s1, o, r1, r2, r3, r4⟩ := h.rest s x y chunkSize hR chunkSize_pos
    rw [r1]
    simp only
    cases hfin : L.finished s1 with
    | true =>
      rw [if_pos rfl]
      exact ⟨s1, o, rfl, r3 hfin⟩
    | false =>
      rw [if_neg (by decide)]
      have hpos := List.length_pos_iff.mpr (r4 hfin)
      have hb := h.bound _ _ _ _ r2
      rw [List.length_append] at hb
      obtain ⟨s', o', g1, g2⟩ := ih s1 x (y ++ o) (acc ++ o) r2 (by rw [List.length_append]; omega)
      exact ⟨s', o ++ o', by rw [g1, List.append_assoc], by rw [← List.append_assoc]; exact g2⟩

/-- A history of writes and the finish, for any method whose loops do what they should. -/
theorem encodeAll_lib {σ : Type} {write : σ → Bytes → Out (σ × Bytes × Option Err)} {fin : σ → Out (Bytes × Option Err)}
    {Valid : Bytes → Bytes → Prop} {R : σ → Bytes → Bytes → Prop} {s0 : σ} (total : Nat)
    (hw : ∀ s x y b, R s x y → b ≠ [] → b.length < 2^32 → x.length + b.length ≤ total →
      ∃ s' o, write s b = .ok (s', o, none) ∧ R s' (x ++ b) (y ++ o))
    (hf : ∀ s x y, R s x y → x.length ≤ total → ∃ o, fin s = .ok (o, none) ∧ Valid x (y ++ o)) :
    ∀ (bs : List Bytes) s x y, R s x y → [] ∉ bs → (∀ b ∈ bs, b.length < 2^32) → x.length + bs.flatten.length ≤ total →
      ∃ o, encodeAll (libEnc s0 write fin) s bs = some o ∧ Valid (x ++ bs.flatten) (y ++ o) := by
  intro bs
  induction bs with
  | nil =>
    intro s x y hR _ _ ht
    obtain ⟨o, g1, g2⟩ := hf s x y hR (by simpa using ht)
    refine ⟨o, ?_, by simpa using g2⟩
    simp only [encodeAll, libEnc, g1]
  | cons b bs ih =>
    intro s x y hR hne hl ht
    rw [List.flatten_cons, List.length_append] at ht
    obtain ⟨s', o, g1, g2⟩ := hw s x y b hR (fun h => hne (by rw [h]; exact List.mem_cons_self)) (hl b List.mem_cons_self)
      (by omega)
    obtain ⟨o', k1, k2⟩ := ih s' (x ++ b) (y ++ o) g2 (fun h => hne (List.mem_cons_of_mem _ h))
      (fun c hc => hl c (List.mem_cons_of_mem _ hc)) (by rw [List.length_append]; omega)
    refine ⟨o ++ o', ?_, ?_⟩
    · rw [encodeAll]
      simp only [libEnc, g1]
      simp only [libEnc] at k1
      rw [k1]
      rfl
    · rw [List.flatten_cons, ← List.append_assoc, ← List.append_assoc]
      exact k2

end Drpm
