import Verif.CodecSpec
/-!
# Failures of the compression libraries are reported (C86)
-/

namespace Drpm

/-! ## The loops -/

/-- The codes returned by the calls of one loop: all pass the test, or all but the last. -/
theorem roomLoop_log {σ ρ : Type} (call : LibCall σ ρ) (verdict : ρ → Option Err) :
    ∀ (fuel : Nat) (s : σ × List ρ) (inp acc : Bytes) (s' : σ × List ρ) (out : Bytes) (e : Option Err),
      roomLoop (logCall call) verdict fuel s inp acc = .ok (s', out, e) →
      ∃ l, s'.2 = s.2 ++ l ∧ (e = none → ∀ c ∈ l, verdict c = none) ∧ (e ≠ none → ∃ c ∈ l, verdict c = e) := by
  intro fuel
  induction fuel with
  | zero => intro s inp acc s' out e h; cases h
  | succ fuel ih =>
    intro s inp acc s' out e h
    rw [roomLoop] at h
    cases hv : verdict (logCall call s inp chunkSize).ret with
    | some e' =>
      rw [hv] at h
      cases h
      refine ⟨[(call s.1 inp chunkSize).ret], rfl, (fun h => by cases h), fun _ => ⟨_, List.mem_singleton.mpr rfl, hv⟩⟩
    | none =>
      rw [hv] at h
      simp only at h
      split at h
      · obtain ⟨l, h1, h2, h3⟩ := ih _ _ _ _ _ _ h
        refine ⟨(call s.1 inp chunkSize).ret :: l, ?_, ?_, ?_⟩
        · rw [h1]; simp [logCall]
        · intro he c hc
          rcases List.mem_cons.mp hc with rfl | hc
          · exact hv
          · exact h2 he c hc
        · intro he
          obtain ⟨c, hc, h⟩ := h3 he
          exact ⟨c, List.mem_cons_of_mem _ hc, h⟩
      · cases h
        refine ⟨[(call s.1 inp chunkSize).ret], rfl, ?_, fun h => absurd rfl h⟩
        intro _ c hc
        rw [List.mem_singleton] at hc
        subst hc
        exact hv

theorem inputLoop_log {σ : Type} (call : LibCall σ ZstdCode) (room : Nat) :
    ∀ (fuel : Nat) (s : σ × List ZstdCode) (inp acc : Bytes) (s' : σ × List ZstdCode) (out : Bytes) (e : Option Err),
      inputLoop (logCall call) room fuel s inp acc = .ok (s', out, e) →
      ∃ l, s'.2 = s.2 ++ l ∧ (e = none → ∀ c ∈ l, zstdVerdict c = none) ∧ (e ≠ none → ∃ c ∈ l, zstdVerdict c = e) := by
  intro fuel
  induction fuel with
  | zero => intro s inp acc s' out e h; cases h
  | succ fuel ih =>
    intro s inp acc s' out e h
    rw [inputLoop] at h
    split at h
    · cases h
      exact ⟨[], by simp, (fun _ c hc => by cases hc), fun h => absurd rfl h⟩
    · cases hv : zstdVerdict (logCall call s inp room).ret with
      | some e' =>
        rw [hv] at h
        cases h
        refine ⟨[(call s.1 inp room).ret], rfl, (fun h => by cases h), fun _ => ⟨_, List.mem_singleton.mpr rfl, hv⟩⟩
      | none =>
        rw [hv] at h
        simp only at h
        obtain ⟨l, h1, h2, h3⟩ := ih _ _ _ _ _ _ h
        refine ⟨(call s.1 inp room).ret :: l, ?_, ?_, ?_⟩
        · rw [h1]; simp [logCall]
        · intro he c hc
          rcases List.mem_cons.mp hc with rfl | hc
          · exact hv
          · exact h2 he c hc
        · intro he
          obtain ⟨c, hc, h⟩ := h3 he
          exact ⟨c, List.mem_cons_of_mem _ hc, h⟩

theorem readPieces_log {σ ρ : Type} (run : σ × List ρ → Bytes → Out ((σ × List ρ) × Bytes × Option Err)) (verdict : ρ → Option Err)
    (hrun : ∀ s b s' out e, run s b = .ok (s', out, e) →
      ∃ l, s'.2 = s.2 ++ l ∧ (e = none → ∀ c ∈ l, verdict c = none) ∧ (e ≠ none → ∃ c ∈ l, verdict c = e)) :
    ∀ (pieces : List Bytes) (s : UnpackSt (σ × List ρ)) (ev : Events) (s' : UnpackSt (σ × List ρ)),
      readPieces run s pieces = .ok (ev, s') →
      ∃ l, s'.lib.2 = s.lib.2 ++ l ∧ ((∀ x ∈ ev, x.2 = none) → ∀ c ∈ l, verdict c = none) ∧
        ∀ x ∈ ev, x.2 ≠ none → ∃ c ∈ l, verdict c = x.2 := by
  intro pieces
  induction pieces with
  | nil =>
    intro s ev s' h
    cases h
    exact ⟨[], by simp, (fun _ c hc => by cases hc), fun x hx => by cases hx⟩
  | cons b pieces ih =>
    intro s ev s' h
    rw [readPieces, Out.bind_eq_ok] at h
    obtain ⟨⟨⟨o, e⟩, s1⟩, h1, h⟩ := h
    simp only at h
    rw [Out.bind_eq_ok] at h
    obtain ⟨⟨evs, s2⟩, h2, h⟩ := h
    cases h
    unfold readPiece at h1
    rw [Out.bind_eq_ok] at h1
    obtain ⟨⟨lib, out, e'⟩, h3, h1⟩ := h1
    obtain ⟨l1, g1, g2, g3⟩ := hrun _ _ _ _ _ h3
    have hs1 : s1.lib = lib ∧ e = e' := by
      cases e' with
      | some e' => cases h1; exact ⟨rfl, rfl⟩
      | none => cases h1; exact ⟨rfl, rfl⟩
    obtain ⟨l2, k1, k2, k3⟩ := ih _ _ _ h2
    refine ⟨l1 ++ l2, ?_, ?_, ?_⟩
    · rw [k1, hs1.1, g1, List.append_assoc]
    · intro hall c hc
      rcases List.mem_append.mp hc with hc | hc
      · exact g2 (by rw [← hs1.2]; exact hall (o, e) List.mem_cons_self) c hc
      · exact k2 (fun x hx => hall x (List.mem_cons_of_mem _ hx)) c hc
    · intro x hx hn
      rcases List.mem_cons.mp hx with rfl | hx
      · obtain ⟨c, hc, he⟩ := g3 (by rw [← hs1.2]; exact hn)
        exact ⟨c, List.mem_append_left _ hc, by rw [he, ← hs1.2]⟩
      · obtain ⟨c, hc, he⟩ := k3 x hx hn
        exact ⟨c, List.mem_append_right _ hc, he⟩

/-- What is stated for each method: all pieces are read without error exactly if the library never
    failed, and running out of memory is reported as such. -/
theorem readPieces_iff {σ ρ : Type} (run : σ × List ρ → Bytes → Out ((σ × List ρ) × Bytes × Option Err)) (verdict : ρ → Option Err)
    (failed : ρ → Prop) (hv : ∀ c, verdict c = none ↔ ¬ failed c)
    (hrun : ∀ s b s' out e, run s b = .ok (s', out, e) →
      ∃ l, s'.2 = s.2 ++ l ∧ (e = none → ∀ c ∈ l, verdict c = none) ∧ (e ≠ none → ∃ c ∈ l, verdict c = e))
    {pieces : List Bytes} {s : UnpackSt (σ × List ρ)} (hs : s.lib.2 = []) {ev : Events} {s' : UnpackSt (σ × List ρ)}
    (h : readPieces run s pieces = .ok (ev, s')) :
    ((∀ x ∈ ev, x.2 = none) ↔ ∀ c ∈ s'.lib.2, ¬ failed c) := by
  obtain ⟨l, h1, h2, h3⟩ := readPieces_log run verdict hrun pieces s ev s' h
  rw [h1, hs, List.nil_append]
  constructor
  · intro hall c hc
    exact (hv c).mp (h2 hall c hc)
  · intro hall x hx
    cases hx2 : x.2 with
    | none => rfl
    | some e =>
      obtain ⟨c, hc, he⟩ := h3 x hx (by rw [hx2]; simp)
      rw [hx2, (hv c).mpr (hall c hc)] at he
      cases he

/-! ## Decompression -/

/-- C86, gzip: whatever the library does, and however the input is cut into pieces: a piece is read
    without error exactly if `inflate` never reported that it cannot go on. -/
theorem C86_gunzip {σ : Type} (inflate : LibCall σ ZCode) (fuel : Nat) (s : σ) (pieces : List Bytes) (ev : Events)
    (t : UnpackSt (σ × List ZCode)) (h : gunzip (logCall inflate) fuel ⟨(s, []), 0, []⟩ pieces = .ok (ev, t)) :
    (∀ x ∈ ev, x.2 = none) ↔ ∀ c ∈ t.lib.2, ¬ zFailed c :=
  readPieces_iff _ inflateVerdict zFailed (fun c => by cases c <;> simp [inflateVerdict, zFailed])
    (fun s b s' out e hr => roomLoop_log inflate inflateVerdict fuel s b [] s' out e hr) rfl h

/-- C86, bzip2. -/
theorem C86_bunzip {σ : Type} (decompress : LibCall σ BzCode) (fuel : Nat) (s : σ) (pieces : List Bytes) (ev : Events)
    (t : UnpackSt (σ × List BzCode)) (h : bunzip (logCall decompress) fuel ⟨(s, []), 0, []⟩ pieces = .ok (ev, t)) :
    (∀ x ∈ ev, x.2 = none) ↔ ∀ c ∈ t.lib.2, ¬ bzFailed c :=
  readPieces_iff _ bunzipVerdict bzFailed (fun c => by cases c <;> simp [bunzipVerdict, bzFailed])
    (fun s b s' out e hr => roomLoop_log decompress bunzipVerdict fuel s b [] s' out e hr) rfl h

/-- C86, lzma and xz: every code but LZMA_OK and LZMA_STREAM_END is an error. -/
theorem C86_unlzma {σ : Type} (code : LibCall σ LzmaCode) (fuel : Nat) (s : σ) (pieces : List Bytes) (ev : Events)
    (t : UnpackSt (σ × List LzmaCode)) (h : unlzma (logCall code) fuel ⟨(s, []), 0, []⟩ pieces = .ok (ev, t)) :
    (∀ x ∈ ev, x.2 = none) ↔ ∀ c ∈ t.lib.2, lzmaFine c := by
  have := readPieces_iff _ unlzmaVerdict (fun c => ¬ lzmaFine c) (fun c => by cases c <;> simp [unlzmaVerdict, lzmaFine])
    (fun s b s' out e hr => roomLoop_log code unlzmaVerdict fuel s b [] s' out e hr) rfl h
  simpa only [Classical.not_not] using this

/-- C86, zstd. -/
theorem C86_unzstd {σ : Type} (decompress : LibCall σ ZstdCode) (room fuel : Nat) (s : σ) (pieces : List Bytes) (ev : Events)
    (t : UnpackSt (σ × List ZstdCode)) (h : unzstd (logCall decompress) room fuel ⟨(s, []), 0, []⟩ pieces = .ok (ev, t)) :
    (∀ x ∈ ev, x.2 = none) ↔ ∀ c ∈ t.lib.2, c ≠ .error :=
  readPieces_iff _ zstdVerdict (fun c => c = .error) (fun c => by cases c <;> simp [zstdVerdict])
    (fun s b s' out e hr => inputLoop_log decompress room fuel s b [] s' out e hr) rfl h

theorem lzPiece_runs {σ : Type} (L : LzDec σ) : ∀ (fuel : Nat) (s : σ) (inp acc : Bytes) (s' : σ) (out : Bytes),
    lzPiece L fuel s inp acc = .ok (s', out, none) → ∃ o, out = acc ++ o ∧ LzRuns L s inp o s' := by
  intro fuel
  induction fuel with
  | zero => intro s inp acc s' out h; cases h
  | succ fuel ih =>
    intro s inp acc s' out h
    rw [lzPiece] at h
    split at h
    · rename_i h0
      cases h
      have : inp = [] := List.length_eq_zero_iff.mp h0
      subst this
      exact ⟨[], by simp, LzRuns.done _⟩
    · rename_i h0
      have hne : inp ≠ [] := fun e => h0 (by rw [e]; rfl)
      unfold lzFeed at h
      by_cases hw : L.writeSize s > 0
      · rw [if_pos hw] at h
        cases h1 : L.write s inp with
        | none => rw [h1] at h; cases h
        | some r =>
          obtain ⟨s1, n⟩ := r
          rw [h1] at h
          simp only at h
          cases h2 : L.read s1 chunkSize with
          | none => rw [h2] at h; cases h
          | some r =>
            obtain ⟨s2, o⟩ := r
            rw [h2] at h
            simp only at h
            obtain ⟨o', e1, e2⟩ := ih _ _ _ _ _ h
            exact ⟨o ++ o', by rw [e1, List.append_assoc], LzRuns.step hne hw h1 h2 e2⟩
      · rw [if_neg hw] at h
        simp only at h
        cases h2 : L.read s chunkSize with
        | none => rw [h2] at h; cases h
        | some r =>
          obtain ⟨s2, o⟩ := r
          rw [h2] at h
          simp only [List.drop_zero] at h
          obtain ⟨o', e1, e2⟩ := ih _ _ _ _ _ h
          exact ⟨o ++ o', by rw [e1, List.append_assoc], LzRuns.full hne (by omega) h2 e2⟩

theorem lzRest_ends {σ : Type} (L : LzDec σ) : ∀ (fuel : Nat) (s : σ) (acc : Bytes) (s' : σ) (out : Bytes),
    lzRest L fuel s acc = .ok (s', out, none) → ∃ o, out = acc ++ o ∧ LzEnds L s o s' := by
  intro fuel
  induction fuel with
  | zero => intro s acc s' out h; cases h
  | succ fuel ih =>
    intro s acc s' out h
    rw [lzRest] at h
    cases h2 : L.read s chunkSize with
    | none => rw [h2] at h; cases h
    | some r =>
      obtain ⟨s2, o⟩ := r
      rw [h2] at h
      simp only at h
      split at h
      · rename_i hf
        cases h
        exact ⟨o, rfl, LzEnds.last h2 hf⟩
      · rename_i hf
        obtain ⟨o', e1, e2⟩ := ih _ _ _ _ h
        exact ⟨o ++ o', by rw [e1, List.append_assoc], LzEnds.more h2 (by simpa using hf) e2⟩

/-- C86, lzip: a piece is read without error only if lzlib took all of it and no call failed, and then
    the data are what lzlib put out. -/
theorem C86_lzip_piece {σ : Type} (L : LzDec σ) (fuel : Nat) (s t : σ) (inp out : Bytes)
    (h : lzPiece L fuel s inp [] = .ok (t, out, none)) : LzRuns L s inp out t := by
  obtain ⟨o, e1, e2⟩ := lzPiece_runs L fuel s inp [] t out h
  rw [e1, List.nil_append]
  exact e2

/-- C86, lzip: the end is reached without error only if lzlib says that the stream is complete. -/
theorem C86_lzip_end {σ : Type} (L : LzDec σ) (fuel : Nat) (s t : σ) (out : Bytes)
    (h : lzRest L fuel s [] = .ok (t, out, none)) : LzEnds L s out t := by
  obtain ⟨o, e1, e2⟩ := lzRest_ends L fuel s [] t out h
  rw [e1, List.nil_append]
  exact e2

/-! ## Compression -/

/-- C86, writing with lzma or xz: success exactly if every call returned LZMA_OK. -/
theorem C86_write_lzma {σ : Type} (code : LibCall σ LzmaCode) (fuel : Nat) (s : σ) (b : Bytes) (t : σ × List LzmaCode) (out : Bytes)
    (e : Option Err) (h : lzmaWrite (logCall code) fuel (s, []) b = .ok (t, out, e)) :
    e = none ↔ ∀ c ∈ t.2, c = .ok := by
  obtain ⟨l, h1, h2, h3⟩ := roomLoop_log code lzmaVerdict fuel (s, []) b [] t out e h
  rw [h1, List.nil_append]
  have hv : ∀ c, lzmaVerdict c = none ↔ c = .ok := fun c => by cases c <;> simp [lzmaVerdict]
  constructor
  · intro he c hc
    exact (hv c).mp (h2 he c hc)
  · intro hall
    cases e with
    | none => rfl
    | some e =>
      obtain ⟨c, hc, he⟩ := h3 (by simp)
      rw [(hv c).mpr (hall c hc)] at he
      cases he

/-- C86, writing with zstd. -/
theorem C86_write_zstd {σ : Type} (compress : LibCall σ ZstdCode) (room fuel : Nat) (s : σ) (b : Bytes) (t : σ × List ZstdCode)
    (out : Bytes) (e : Option Err) (h : zstdWrite (logCall compress) room fuel (s, []) b = .ok (t, out, e)) :
    e = none ↔ ∀ c ∈ t.2, c ≠ .error := by
  obtain ⟨l, h1, h2, h3⟩ := inputLoop_log compress room fuel (s, []) b [] t out e h
  rw [h1, List.nil_append]
  have hv : ∀ c, zstdVerdict c = none ↔ c ≠ .error := fun c => by cases c <;> simp [zstdVerdict]
  constructor
  · intro he c hc
    exact (hv c).mp (h2 he c hc)
  · intro hall
    cases e with
    | none => rfl
    | some e =>
      obtain ⟨c, hc, he⟩ := h3 (by simp)
      rw [(hv c).mpr (hall c hc)] at he
      cases he

theorem finLoop_calls {σ ρ : Type} (call : σ → Nat → LibStep σ ρ) (verdict : ρ → Option Err) (done : ρ → Nat → Bool) (room : Nat) :
    ∀ (fuel : Nat) (s : σ) (acc out : Bytes) (e : Option Err), finLoop call verdict done room fuel s acc = .ok (out, e) →
      ∃ n, (∀ i, i < n → verdict (call (afterCalls call room s i) room).ret = none ∧
          done (call (afterCalls call room s i) room).ret (call (afterCalls call room s i) room).out.length = false) ∧
        verdict (call (afterCalls call room s n) room).ret = e ∧
        (e = none → done (call (afterCalls call room s n) room).ret (call (afterCalls call room s n) room).out.length = true ∧
          out = acc ++ outOfCalls call room s (n + 1)) := by
  intro fuel
  induction fuel with
  | zero => intro s acc out e h; cases h
  | succ fuel ih =>
    intro s acc out e h
    rw [finLoop] at h
    cases hv : verdict (call s room).ret with
    | some e' =>
      rw [hv] at h
      cases h
      exact ⟨0, (fun i hi => by omega), hv, fun h => by cases h⟩
    | none =>
      rw [hv] at h
      simp only at h
      split at h
      · rename_i hd
        cases h
        exact ⟨0, (fun i hi => by omega), hv, fun _ => ⟨hd, by simp [outOfCalls]⟩⟩
      · rename_i hd
        obtain ⟨n, h1, h2, h3⟩ := ih _ _ _ _ h
        refine ⟨n + 1, ?_, h2, ?_⟩
        · intro i hi
          cases i with
          | zero => exact ⟨hv, Bool.eq_false_iff.mpr hd⟩
          | succ i => exact h1 i (by omega)
        · intro he
          obtain ⟨g1, g2⟩ := h3 he
          refine ⟨g1, ?_⟩
          rw [g2, List.append_assoc]
          rfl

/-- C86, finishing with lzma or xz: after some calls that return LZMA_OK comes one that does not. If
    it is LZMA_STREAM_END, the call succeeds with everything that was put out; otherwise it fails. -/
theorem C86_finish_lzma {σ : Type} (code : σ → Nat → LibStep σ LzmaCode) (fuel : Nat) (s : σ) (out : Bytes) (e : Option Err)
    (h : lzmaFinish code fuel s = .ok (out, e)) :
    ∃ n, (∀ i, i < n → (code (afterCalls code 1024 s i) 1024).ret = .ok) ∧ (code (afterCalls code 1024 s n) 1024).ret ≠ .ok ∧
      (e = none ↔ (code (afterCalls code 1024 s n) 1024).ret = .streamEnd) ∧
      (e = none → out = outOfCalls code 1024 s (n + 1)) := by
  obtain ⟨n, h1, h2, h3⟩ := finLoop_calls code lzmaFinVerdict (fun c _ => c == .streamEnd) chunkSize fuel s [] out e h
  have hc : chunkSize = 1024 := rfl
  rw [hc] at h1 h2 h3
  refine ⟨n, ?_, ?_, ?_, ?_⟩
  · intro i hi
    obtain ⟨g1, g2⟩ := h1 i hi
    revert g1 g2
    cases (code (afterCalls code 1024 s i) 1024).ret <;> simp [lzmaFinVerdict]
  · cases e with
    | none =>
      have := (h3 rfl).1
      intro hr
      rw [hr] at this
      cases this
    | some e =>
      intro hr
      rw [hr] at h2
      cases h2
  · constructor
    · intro he
      have := (h3 he).1
      simpa using this
    · intro hr
      rw [hr] at h2
      exact h2.symm
  · intro he
    have := (h3 he).2
    rwa [List.nil_append] at this

/-- C86, finishing with zstd: calls that leave something to be put out, then one that leaves nothing or
    fails. -/
theorem C86_finish_zstd {σ : Type} (compress : σ → Nat → LibStep σ ZstdCode) (room fuel : Nat) (s : σ) (out : Bytes) (e : Option Err)
    (h : zstdFinish compress room fuel s = .ok (out, e)) :
    ∃ n, (∀ i, i < n → ∃ k, (compress (afterCalls compress room s i) room).ret = .hint (k + 1)) ∧
      (e = none ↔ (compress (afterCalls compress room s n) room).ret = .hint 0) ∧
      (e ≠ none ↔ (compress (afterCalls compress room s n) room).ret = .error) ∧
      (e = none → out = outOfCalls compress room s (n + 1)) := by
  obtain ⟨n, h1, h2, h3⟩ := finLoop_calls compress zstdVerdict (fun c _ => c == .hint 0) room fuel s [] out e h
  refine ⟨n, ?_, ?_, ?_, ?_⟩
  · intro i hi
    obtain ⟨g1, g2⟩ := h1 i hi
    revert g1 g2
    cases (compress (afterCalls compress room s i) room).ret with
    | error => intro g1; cases g1
    | hint k =>
      cases k with
      | zero => intro _ g2; simp at g2
      | succ k => intro _ _; exact ⟨k, rfl⟩
  · constructor
    · intro he
      have := (h3 he).1
      simpa using this
    · intro hr
      rw [hr] at h2
      exact h2.symm
  · constructor
    · intro he
      revert h2
      cases (compress (afterCalls compress room s n) room).ret with
      | error => intro _; rfl
      | hint k => intro h2; exact absurd h2.symm he
    · intro hr he
      rw [hr, he] at h2
      cases h2
  · intro he
    have := (h3 he).2
    rwa [List.nil_append] at this

theorem roomLoop_ignores {σ ρ : Type} (call : LibCall σ ρ) :
    ∀ (fuel : Nat) (s : σ) (inp acc : Bytes) (s' : σ) (out : Bytes) (e : Option Err),
      roomLoop call ignoreCode fuel s inp acc = .ok (s', out, e) → e = none := by
  intro fuel
  induction fuel with
  | zero => intro s inp acc s' out e h; cases h
  | succ fuel ih =>
    intro s inp acc s' out e h
    rw [roomLoop] at h
    simp only [ignoreCode] at h
    split at h
    · exact ih _ _ _ _ _ _ h
    · cases h; rfl

/-- A library all of whose calls fail: it takes the input and puts out nothing. -/
def brokenLib {ρ : Type} (code : ρ) : LibCall Unit ρ := fun _ inp _ => ⟨(), inp.length, [], code⟩

/-- Finishing with bzip2 never returns if the library fails again and again. -/
theorem bzFinish_broken (c : BzCode) (hc : c ≠ .streamEnd) (fuel : Nat) :
    bzFinish (fun s room => brokenLib c s [] room) fuel () = .loop := by
  have : ∀ fuel acc, finLoop (fun s room => brokenLib c s [] room) ignoreCode (fun c _ => c == .streamEnd) chunkSize fuel () acc = .loop := by
    intro fuel
    induction fuel with
    | zero => intro acc; rfl
    | succ fuel ih =>
      intro acc
      rw [finLoop]
      simp only [ignoreCode]
      have hd : ((brokenLib c () [] chunkSize).ret == BzCode.streamEnd) = false := by simpa [brokenLib] using hc
      rw [hd]
      exact ih _
  exact this fuel []

/-- C86 does not hold for compression with gzip and bzip2: no failure is ever reported. For a library
    that reports failure and puts out nothing, writing succeeds and gives nothing, and so does finishing
    with gzip; finishing with bzip2 does not return. -/
theorem C86_violated :
    (∀ {σ : Type} (deflate : LibCall σ ZCode) (fuel : Nat) (s t : σ) (b out : Bytes) (e : Option Err),
      gzWrite deflate fuel s b = .ok (t, out, e) → e = none) ∧
    (∀ {σ : Type} (compress : LibCall σ BzCode) (fuel : Nat) (s t : σ) (b out : Bytes) (e : Option Err),
      bzWrite compress fuel s b = .ok (t, out, e) → e = none) ∧
    gzWrite (brokenLib .streamError) 1 () [1, 2, 3] = .ok ((), [], none) ∧
    gzFinish (fun s room => brokenLib .streamError s [] room) 1 () = .ok ([], none) ∧
    bzWrite (brokenLib .memError) 1 () [1, 2, 3] = .ok ((), [], none) ∧
    ∀ fuel, bzFinish (fun s room => brokenLib .memError s [] room) fuel () = .loop :=
  ⟨fun deflate fuel s t _ out e h => roomLoop_ignores deflate fuel s _ [] t out e h,
   fun compress fuel s t _ out e h => roomLoop_ignores compress fuel s _ [] t out e h, rfl, rfl, rfl,
   bzFinish_broken .memError (by decide)⟩

/-! ## Concrete cases -/

/-- A decoder that copies its input, and fails when it meets the byte 255. -/
def pickyLib {ρ : Type} (fine bad : ρ) : LibCall Unit ρ :=
  fun _ inp _ => if inp.contains 255 then ⟨(), 0, [], bad⟩ else ⟨(), inp.length, inp, fine⟩

/-- Non-vacuity of C86: both outcomes occur. -/
example : (∃ t, gunzip (logCall (pickyLib .ok .dataError)) 1 ⟨((), []), 0, []⟩ [[1, 2], [3]] = .ok ([([1, 2], none), ([3], none)], t) ∧
      t.lib.2 = [.ok, .ok]) ∧
    (∃ t, gunzip (logCall (pickyLib .ok .dataError)) 1 ⟨((), []), 0, []⟩ [[1, 2], [255]] =
      .ok ([([1, 2], none), ([], some .format)], t) ∧ t.lib.2 = [.ok, .dataError]) ∧
    (∃ t, unlzma (logCall (pickyLib .ok .memlimitError)) 1 ⟨((), []), 0, []⟩ [[255]] = .ok ([([], some .other)], t)) ∧
    (∃ t, bunzip (logCall (pickyLib .ok .dataErrorMagic)) 1 ⟨((), []), 0, []⟩ [[255]] = .ok ([([], some .format)], t)) ∧
    (∃ t, unzstd (logCall (pickyLib (.hint 0) .error)) 5 2 ⟨((), []), 0, []⟩ [[255]] = .ok ([([], some .other)], t)) ∧
    (∃ t, lzmaWrite (logCall (pickyLib .ok .memError)) 1 ((), []) [255] = .ok (t, [], some .memory)) :=
  ⟨⟨_, rfl, rfl⟩, ⟨_, rfl, rfl⟩, ⟨_, rfl⟩, ⟨_, rfl⟩, ⟨_, rfl⟩, ⟨_, rfl⟩⟩

end Drpm
