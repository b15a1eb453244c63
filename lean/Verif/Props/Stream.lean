import Verif.StrmLemmas
import Verif.MagicLemmas
/-!
# Properties C27, C28, C29, C30, C32: compression and decompression streams
-/

namespace Drpm

/-! ## C28 -/

/-- C28: over every history of writes and finishes on a stream with a file descriptor, if a finish
    hands out `d`, then exactly `d` was appended to the file. -/
theorem C28_file_and_memory {σ : Type} (E : Enc σ) (hE : E.Ok) (f0 : Bytes) (ops : List COp)
    (e : Option Err) (d : Bytes) (h : (e, some d) ∈ (csRun E (csInit E true f0) ops).2) :
    (csRun E (csInit E true f0) ops).1.file = f0 ++ d :=
  csRun_result hE ops _ (CInv.init E f0) e d h

theorem csRun_append {σ : Type} (E : Enc σ) (as bs : List COp) : ∀ s,
    csRun E s (as ++ bs) =
      ((csRun E (csRun E s as).1 bs).1, (csRun E s as).2 ++ (csRun E (csRun E s as).1 bs).2) := by
  induction as with
  | nil => intro s; simp [csRun]
  | cons a as ih => intro s; simp [csRun, ih]

theorem csRun_plain_writes (bs : List Bytes) : ∀ s : CStrm Unit, s.finished = false →
    (csRun plainEnc s (bs.map COp.write)).2 = bs.map (fun _ => (none, none)) ∧
    (csRun plainEnc s (bs.map COp.write)).1.data = s.data ++ bs.flatten ∧
    (csRun plainEnc s (bs.map COp.write)).1.finished = false := by
  induction bs with
  | nil => intro s hs; simp [csRun, hs]
  | cons b bs ih =>
    intro s hs
    have h1 : (csWrite plainEnc s b).1 = none ∧ (csWrite plainEnc s b).2.data = s.data ++ b ∧
        (csWrite plainEnc s b).2.finished = false := by
      unfold csWrite
      simp only [hs, Bool.false_eq_true, if_false]
      split
      · rename_i hb; rw [List.length_eq_zero_iff.mp hb]; simp [hs]
      · simp [plainEnc]
    obtain ⟨a1, a2, a3⟩ := ih _ h1.2.2
    simp only [List.map_cons, csRun, csOp, List.flatten_cons]
    refine ⟨?_, ?_, a3⟩
    · rw [a1, h1.1]
    · rw [a2, h1.2.1, List.append_assoc]

/-- C28: without compression every write succeeds and the data handed out at the end, like the data
    in the file, is the concatenation of what was written. -/
theorem C28_uncompressed (f0 : Bytes) (bs : List Bytes) :
    (csRun plainEnc (csInit plainEnc true f0) (bs.map COp.write ++ [.finish])).2 =
      bs.map (fun _ => (none, none)) ++ [(none, some bs.flatten)] ∧
    (csRun plainEnc (csInit plainEnc true f0) (bs.map COp.write ++ [.finish])).1.file =
      f0 ++ bs.flatten := by
  obtain ⟨a1, a2, a3⟩ := csRun_plain_writes bs (csInit plainEnc true f0) rfl
  have h : (csRun plainEnc (csInit plainEnc true f0) (bs.map COp.write ++ [.finish])).2 =
      bs.map (fun _ => (none, none)) ++ [(none, some bs.flatten)] := by
    rw [csRun_append]
    simp only [a1]
    congr 1
    have hd : (csRun plainEnc (csInit plainEnc true f0) (bs.map COp.write)).1.data = bs.flatten := by
      rw [a2]; simp [csInit]
    generalize csRun plainEnc (csInit plainEnc true f0) (bs.map COp.write) = r at *
    simp [csRun, csOp, csFinish, a3, plainEnc, hd]
  refine ⟨h, ?_⟩
  apply C28_file_and_memory plainEnc plainEnc_ok f0 _ none
  rw [h]
  simp

/-- An encoder that keeps bytes back until four are there, and ends with a marker: used in the
    examples. -/
def lazyEnc : Enc Bytes :=
  { init := [],
    write := fun st b => if (st ++ b).length < 4 then ([], st ++ b, none) else (st ++ b, [], none),
    finish := some (fun st => (st ++ [255], none)) }

example : lazyEnc.Ok := fun h => by cases h

example : (csRun lazyEnc (csInit lazyEnc true [9]) [.write [1, 2], .write [3, 4, 5], .write [6], .finish]).2
      = [(none, none), (none, none), (none, none), (none, some [1, 2, 3, 4, 5, 6, 255])] ∧
    (csRun lazyEnc (csInit lazyEnc true [9]) [.write [1, 2], .write [3, 4, 5], .write [6], .finish]).1.file
      = [9, 1, 2, 3, 4, 5, 6, 255] := by
  constructor <;> rfl

/-! ## C27 -/

/-- C27: whatever the pieces, if writing them through the wrapper succeeds, then the first `ulen`
    bytes of their concatenation come out verbatim, and the bytes after them, and only these, went
    through the encoder; the same is appended to the file. -/
theorem C27_prefix_verbatim {σ : Type} (E : Enc σ) (ulen : Nat) (f0 : Bytes) (bs : List Bytes)
    (d f : Bytes) (h : wrAll E ulen f0 bs = .ok (d, f)) :
    ulen ≤ bs.flatten.length ∧ f = f0 ++ d ∧
    ∃ ps z, ps.flatten = bs.flatten.drop ulen ∧ [] ∉ ps ∧ encodeAll E E.init ps = some z ∧
      d = bs.flatten.take ulen ++ z := by
  unfold wrAll at h
  rw [Out.bind_eq_ok] at h
  obtain ⟨w, hw, h⟩ := h
  obtain ⟨ps, hi⟩ := WInv.writes bs (WInv.init E ulen f0) hw
  rw [List.nil_append] at hi
  obtain ⟨hu, hd, hr, hne, he, hp, hfd, hfile, ho⟩ := hi
  have key : ∀ z s', csFinish E w.strm = (.ok z, s') →
      encodeAll E E.init ps = some z ∧ s'.file = f0 ++ bs.flatten.take ulen ++ z := by
    intro z s' hz
    unfold csFinish at hz
    simp only [ho, Bool.false_eq_true, if_false] at hz
    rw [encodeAll_emit, he]
    simp only [Option.bind_some, encodeAll]
    split at hz
    · rename_i hn
      simp only [Prod.mk.injEq, Except.ok.injEq] at hz
      obtain ⟨rfl, rfl⟩ := hz
      simp [hn, hfile]
    · rename_i fn hn
      split at hz
      · cases hz
      · rename_i o ho'
        simp only [Prod.mk.injEq, Except.ok.injEq] at hz
        obtain ⟨rfl, rfl⟩ := hz
        simp only [hn, ho', hfd, if_true, hp, hfile]
        simp
  unfold wrFinish at h
  rcases hz : csFinish E w.strm with ⟨r, s'⟩
  rw [hz] at h
  cases r with
  | error e => simp at h
  | ok z =>
    obtain ⟨k1, k2⟩ := key z s' hz
    simp only at h
    by_cases hlt : w.udata.length < w.ulen
    · rw [if_pos hlt] at h; simp at h
    · rw [if_neg hlt] at h
      simp only [Out.ok.injEq, Prod.mk.injEq] at h
      obtain ⟨rfl, rfl⟩ := h
      have hl : ulen ≤ bs.flatten.length := by
        rw [hd, hu, List.length_take] at hlt; omega
      refine ⟨hl, ?_, ps, z, hr, hne, k1, by rw [hd]⟩
      rw [k2, hd]; simp

/-- C27: if the encoder's output depends only on the bytes it is given, then the result does not
    depend on how the stream was cut into pieces. -/
theorem C27_any_chunking {σ : Type} (E : Enc σ)
    (hE : ∀ ps qs : List Bytes, ps.flatten = qs.flatten → encodeAll E E.init ps = encodeAll E E.init qs)
    (ulen : Nat) (f0 : Bytes) (as bs : List Bytes) (hab : as.flatten = bs.flatten)
    (r q : Bytes × Bytes) (ha : wrAll E ulen f0 as = .ok r) (hb : wrAll E ulen f0 bs = .ok q) :
    r = q := by
  obtain ⟨d1, f1⟩ := r
  obtain ⟨d2, f2⟩ := q
  obtain ⟨_, rfl, ps, z, a1, _, a2, rfl⟩ := C27_prefix_verbatim E ulen f0 as d1 f1 ha
  obtain ⟨_, rfl, qs, y, b1, _, b2, rfl⟩ := C27_prefix_verbatim E ulen f0 bs d2 f2 hb
  have := hE ps qs (by rw [a1, b1, hab])
  rw [a2, b2] at this
  simp only [Option.some.injEq] at this
  rw [this, hab]

theorem wrWrites_ok {σ : Type} (E : Enc σ) (hw : ∀ st b, (E.write st b).2.2 = none) (bs : List Bytes) :
    ∀ w : Wrap σ, w.strm.finished = false → ∃ w', wrWrites E w bs = .ok w' ∧ w'.strm.finished = false := by
  have hc : ∀ (s : CStrm σ) b, s.finished = false →
      (csWrite E s b).1 = none ∧ (csWrite E s b).2.finished = false := by
    intro s b hs
    unfold csWrite
    simp only [hs, Bool.false_eq_true, if_false]
    split
    · exact ⟨rfl, hs⟩
    · have := hw s.st b
      rcases hq : E.write s.st b with ⟨o, st, e⟩
      rw [hq] at this
      simp only at this
      subst this
      exact ⟨rfl, rfl⟩
  induction bs with
  | nil => intro w h; exact ⟨w, rfl, h⟩
  | cons b bs ih =>
    intro w h
    rw [wrWrites]
    have h1 : (wrWrite E w b).1 = none ∧ (wrWrite E w b).2.strm.finished = false := by
      unfold wrWrite
      split
      · split
        · exact ⟨rfl, h⟩
        · exact hc _ _ h
      · exact hc _ _ h
    rcases hq : wrWrite E w b with ⟨e, w'⟩
    rw [hq] at h1
    simp only at h1
    obtain ⟨rfl, h2⟩ := h1
    exact ih w' h2

/-- C27: with an encoder that does not fail, writing succeeds whenever there are at least `ulen`
    bytes. (With fewer, finishing copies uninitialised memory, see `C27_too_short`.) -/
theorem C27_succeeds {σ : Type} (E : Enc σ) (hw : ∀ st b, (E.write st b).2.2 = none)
    (hf : ∀ f, E.finish = some f → ∀ st, (f st).2 = none) (ulen : Nat) (f0 : Bytes) (bs : List Bytes)
    (hl : ulen ≤ bs.flatten.length) : ∃ r, wrAll E ulen f0 bs = .ok r := by
  obtain ⟨w, h1, h2⟩ := wrWrites_ok E hw bs (wrInit E ulen f0) rfl
  obtain ⟨ps, hi⟩ := WInv.writes bs (WInv.init E ulen f0) h1
  unfold wrAll
  rw [h1, Out.bind_ok]
  have : ∃ z s', csFinish E w.strm = (.ok z, s') := by
    unfold csFinish
    simp only [h2, Bool.false_eq_true, if_false]
    split
    · exact ⟨_, _, rfl⟩
    · rename_i f hn
      have := hf f hn w.strm.st
      rcases hq : f w.strm.st with ⟨o, e⟩
      rw [hq] at this
      simp only at this
      subst this
      exact ⟨_, _, rfl⟩
  obtain ⟨z, s', hz⟩ := this
  unfold wrFinish
  rw [hz]
  have hlt : ¬ w.udata.length < w.ulen := by
    rw [hi.hulen, hi.udata, List.nil_append, List.length_take]; omega
  simp only [if_neg hlt]
  exact ⟨_, rfl⟩

/-- If the stream is shorter than the declared header, the reconstruction reads uninitialised
    memory: a delta whose copies produce fewer bytes than its target header length. -/
theorem C27_too_short (ulen : Nat) (f0 : Bytes) (bs : List Bytes) (hl : bs.flatten.length < ulen) :
    wrAll plainEnc ulen f0 bs = .ub := by
  obtain ⟨w, h1, h2⟩ := wrWrites_ok plainEnc (fun _ _ => rfl) bs (wrInit plainEnc ulen f0) rfl
  obtain ⟨ps, hi⟩ := WInv.writes bs (WInv.init plainEnc ulen f0) h1
  unfold wrAll
  rw [h1, Out.bind_ok]
  unfold wrFinish csFinish
  have hlt : w.udata.length < w.ulen := by
    rw [hi.hulen, hi.udata, List.nil_append, List.length_take]; omega
  simp only [h2, plainEnc, Bool.false_eq_true, if_false, if_pos hlt]

example : wrAll lazyEnc 3 [9] [[1, 2], [], [3, 4, 5], [6]] = .ok ([1, 2, 3, 4, 5, 6, 255], [9, 1, 2, 3, 4, 5, 6, 255]) := by
  rfl

example (ps qs : List Bytes) (h : ps.flatten = qs.flatten) :
    encodeAll plainEnc () ps = encodeAll plainEnc () qs := by
  have : ∀ ps : List Bytes, encodeAll plainEnc () ps = some ps.flatten := by
    intro ps
    induction ps with
    | nil => rfl
    | cons p ps ih => simp [encodeAll, plainEnc] at ih ⊢; simp [ih]
  rw [this, this, h]

/-! ## C29 -/

/-- Specification: reading from `total` at `pos`. A read that fits returns the next bytes, one that
    does not fails and leaves the position alone. -/
def readsSpec (total : Bytes) : Nat → List Nat → List (Except Err Bytes)
  | _, [] => []
  | pos, n :: ns =>
    if pos + n ≤ total.length then .ok (slice total pos n) :: readsSpec total (pos + n) ns
    else .error .format :: readsSpec total pos ns

theorem dsReads_clean (ns : List Nat) : ∀ (s : DStrm) (total : Bytes),
    s.pos ≤ s.data.length → Clean s.input → s.data ++ available s.input = total →
    (∀ n ∈ ns, total.length + n < 2^64) →
    ∃ s', dsReads s ns = .ok (readsSpec total s.pos ns, s') := by
  induction ns with
  | nil => intro s total _ _ _ _; exact ⟨s, rfl⟩
  | cons n ns ih =>
    intro s total hp hc ht hn
    have hrest : s.rest = total.drop s.pos := by
      rw [← ht, List.drop_append_of_le_length hp]; rfl
    have hlen : s.data.length ≤ total.length := by rw [← ht]; simp
    have hrl : s.rest.length = total.length - s.pos := by rw [hrest, List.length_drop]
    have hov : s.data.length + n < 2^64 := by have := hn n (by simp); omega
    have hend : endErr s.input = .format := by
      clear ih hrest hrl ht hlen hov
      generalize s.input = ev at hc
      induction ev with
      | nil => rfl
      | cons x ev ih =>
        obtain ⟨b, e⟩ := x
        have := hc (b, e) (by simp)
        simp only at this
        subst this
        exact ih (fun z hz => hc z (by simp [hz]))
    rw [dsReads, readsSpec]
    by_cases hfit : s.pos + n ≤ total.length
    · obtain ⟨s1, a1, a2, a3, a4, a5, a6⟩ := dsRead_ok hp hov (by rw [hrl]; omega)
      have hd1 : s1.data ++ available s1.input = total ∧ s1.pos = s.pos + n := by
        have hlast := a1
        unfold dsRead at hlast
        rw [sumOverflows64_false hov] at hlast
        simp only [Bool.false_eq_true, if_false] at hlast
        obtain ⟨s2, x, b1, b2, b3, b4, b5, _, _⟩ :=
          (available_length_fill s.input s rfl hp n (by omega) (s.input.length + 1) (by omega)).1
            (by have := congrArg List.length ht; simp at this; omega)
        rw [b1, Out.bind_ok] at hlast
        simp only at hlast
        rw [rdBlk_ok (by rw [b2]; exact b5), Out.bind_ok] at hlast
        simp only [Out.ok.injEq, Prod.mk.injEq] at hlast
        rw [← hlast.2]
        refine ⟨?_, ?_⟩
        · simp only; rw [b3, List.append_assoc, b4, ht]
        · simp only; rw [b2, Nat.mod_eq_of_lt (by omega)]
      obtain ⟨s', hs'⟩ := ih s1 total a3 (a6 hc) hd1.1 (fun m hm => hn m (by simp [hm]))
      refine ⟨s', ?_⟩
      rw [a1, Out.bind_ok]
      simp only
      rw [hs', if_pos hfit, hd1.2, hrest]
      rfl
    · obtain ⟨s1, a1, a2, a3, a4, a5⟩ := dsRead_fail hp hov (by rw [hrl]; omega)
      obtain ⟨b1, b2, b3⟩ := a5 hc
      have hd1 : s1.data ++ available s1.input = total := by
        rw [b2, available, List.append_nil]
        have h1 : s1.data.drop s.pos = total.drop s.pos := by
          rw [← hrest, ← b1, DStrm.rest, b2, available, List.append_nil, a2]
        have h2 : s1.data.length = total.length := by rw [b3, ← ht, List.length_append]
        obtain ⟨s2, c1, c2, _, c4⟩ :=
          (available_length_fill s.input s rfl hp n (by omega) (s.input.length + 1) (by omega)).2
            (by have := congrArg List.length ht; simp at this; omega)
        have hlast := a1
        unfold dsRead at hlast
        rw [sumOverflows64_false hov] at hlast
        simp only [Bool.false_eq_true, if_false] at hlast
        rw [c1, Out.bind_ok] at hlast
        simp only [Out.ok.injEq, Prod.mk.injEq] at hlast
        rw [← hlast.2, (c4 hc).1, ht]
      obtain ⟨s', hs'⟩ := ih s1 total a4 (by rw [b2]; intro x hx; cases hx) hd1
        (fun m hm => hn m (by simp [hm]))
      refine ⟨s', ?_⟩
      rw [a1, Out.bind_ok]
      simp only
      rw [hs', if_neg hfit, a2, hend]
      rfl

/-- C29: for every history of reads from a stream whose chunks decode without error, the results are
    the consecutive slices of the decompressed data, and reads beyond the end fail without skipping
    anything, however the data was cut into chunks. -/
theorem C29_history (chunks : List Bytes) (ns : List Nat)
    (hn : ∀ n ∈ ns, chunks.flatten.length + n < 2^64) :
    ∃ s, dsReads (dsInit (chunks.map (fun b => (b, none)))) ns =
      .ok (readsSpec chunks.flatten 0 ns, s) := by
  have hc : Clean (chunks.map (fun b => ((b, none) : Bytes × Option Err))) := clean_plain chunks
  refine dsReads_clean ns (dsInit _) chunks.flatten (Nat.zero_le _) hc ?_ hn
  simp only [dsInit, List.nil_append]
  exact available_plain chunks

/-- C29: chunking does not matter. -/
theorem C29_chunking_irrelevant (as bs : List Bytes) (hab : as.flatten = bs.flatten) (ns : List Nat)
    (hn : ∀ n ∈ ns, as.flatten.length + n < 2^64) :
    ∃ rs s t, dsReads (dsInit (as.map (fun b => (b, none)))) ns = .ok (rs, s) ∧
      dsReads (dsInit (bs.map (fun b => (b, none)))) ns = .ok (rs, t) := by
  obtain ⟨s, hs⟩ := C29_history as ns hn
  obtain ⟨t, ht⟩ := C29_history bs ns (by rwa [← hab])
  exact ⟨_, s, t, hs, by rw [ht, hab]⟩

/-- C29, streams that break off with an error: a read that fits into what was decoded before the
    error returns the next bytes of it; any other read fails with that error and consumes nothing.
    This is the view `rdN` of src/drpm_decompstrm.c:388-408 on which the delta reader is modelled. -/
theorem C29_refines_rdN (s : DStrm) (n : Nat) (hp : s.pos ≤ s.data.length)
    (hov : s.data.length + n < 2^64) :
    (∀ b r, rdN n s.rest = .ok (b, r) →
      ∃ s', dsRead s n = .ok (.ok b, s') ∧ s'.rest = r ∧ s'.pos ≤ s'.data.length ∧
        endErr s'.input = endErr s.input) ∧
    (rdN n s.rest = .err .format →
      ∃ s', dsRead s n = .ok (.error (endErr s.input), s') ∧ s'.pos = s.pos) := by
  constructor
  · intro b r h
    unfold rdN at h
    split at h
    · rename_i hle
      simp only [Out.ok.injEq, Prod.mk.injEq] at h
      obtain ⟨rfl, rfl⟩ := h
      obtain ⟨s', a1, a2, a3, _, a5, _⟩ := dsRead_ok hp hov hle
      exact ⟨s', a1, a2, a3, a5⟩
    · cases h
  · intro h
    unfold rdN at h
    split at h
    · cases h
    · rename_i hle
      obtain ⟨s', a1, a2, _⟩ := dsRead_fail hp hov (Nat.lt_of_not_le hle)
      exact ⟨s', a1, a2⟩

/-- Every history of reads is defined: no read leaves the buffer. -/
theorem C29_memory_safe (ev : Events) (ns : List Nat)
    (hlt : (ev.map (fun x => x.1.length)).sum < 2^63) (hn : ∀ n ∈ ns, n < 2^63) :
    (dsReads (dsInit ev) ns).Defined := by
  have hav : ∀ ev : Events, (available ev).length ≤ (ev.map (fun x => x.1.length)).sum := by
    intro ev
    induction ev with
    | nil => simp [available]
    | cons x ev ih =>
      obtain ⟨b, e⟩ := x
      cases e <;> simp [available] <;> omega
  have hfill : ∀ n fuel (s : DStrm), s.input.length < fuel → s.pos ≤ s.data.length →
      ∃ r, dsFill n fuel s = .ok r ∧ r.2.pos = s.pos ∧ s.data.length ≤ r.2.data.length ∧
        r.2.data.length + (r.2.input.map (fun x => x.1.length)).sum =
          s.data.length + (s.input.map (fun x => x.1.length)).sum ∧
        (r.1 = none → (s.pos + n) % 2^64 ≤ r.2.data.length) := by
    intro n fuel
    induction fuel with
    | zero => intro s h _; omega
    | succ fuel ih =>
      intro s hf hp
      rw [dsFill]
      split
      · rename_i hgt
        unfold dsChunk
        split
        · rename_i heq
          split at heq
          · rename_i hnil
            simp only [Prod.mk.injEq, Option.some.injEq] at heq
            obtain ⟨rfl, rfl⟩ := heq
            exact ⟨_, rfl, rfl, Nat.le_refl _, rfl, fun h => by cases h⟩
          · rename_i b e' ev' hcons
            simp only [Prod.mk.injEq] at heq
            obtain ⟨rfl, rfl⟩ := heq
            refine ⟨_, rfl, rfl, ?_, ?_, fun h => by cases h⟩
            · simp
            · simp [hcons]; omega
        · rename_i heq
          split at heq
          · cases heq
          · rename_i b e' ev' hcons
            simp only [Prod.mk.injEq] at heq
            obtain ⟨rfl, rfl⟩ := heq
            rw [hcons] at hf
            obtain ⟨r, b1, b2, b3, b4, b5⟩ := ih { s with data := s.data ++ b, input := ev' }
              (by simp at hf ⊢; omega) (by simp; omega)
            refine ⟨r, b1, b2, ?_, ?_, b5⟩
            · simp at b3; omega
            · rw [b4, hcons]; simp; omega
      · rename_i hle
        exact ⟨_, rfl, rfl, Nat.le_refl _, rfl, fun _ => by simp only; omega⟩
  have main : ∀ (ns : List Nat) (s : DStrm), s.pos ≤ s.data.length →
      s.data.length + (s.input.map (fun x => x.1.length)).sum < 2^63 →
      (∀ n ∈ ns, n < 2^63) → ∃ r, dsReads s ns = .ok r := by
    intro ns
    induction ns with
    | nil => intro s _ _ _; exact ⟨_, rfl⟩
    | cons n ns ih =>
      intro s hp hs hn
      have hn0 := hn n (by simp)
      have hone : ∃ q, dsRead s n = .ok q ∧ q.2.pos ≤ q.2.data.length ∧
          q.2.data.length + (q.2.input.map (fun x => x.1.length)).sum < 2^63 := by
        unfold dsRead
        rw [sumOverflows64_false (by omega)]
        simp only [Bool.false_eq_true, if_false]
        obtain ⟨⟨e, s1⟩, b1, b2, b3, b4, b5⟩ := hfill n (s.input.length + 1) s (by omega) hp
        rw [b1, Out.bind_ok]
        simp only at b2 b3 b4 b5 ⊢
        cases e with
        | some e => exact ⟨_, rfl, by simp only; omega, by simp only; omega⟩
        | none =>
          have h5 := b5 rfl
          rw [Nat.mod_eq_of_lt (by omega)] at h5
          simp only
          rw [rdBlk_ok (by omega), Out.bind_ok]
          refine ⟨_, rfl, ?_, ?_⟩
          · simp only; rw [Nat.mod_eq_of_lt (by omega)]; omega
          · simp only; omega
      obtain ⟨⟨r, s1⟩, c1, c2, c3⟩ := hone
      obtain ⟨q, hq⟩ := ih s1 c2 c3 (fun m hm => hn m (by simp [hm]))
      refine ⟨(r :: q.1, q.2), ?_⟩
      rw [dsReads, c1, Out.bind_ok]
      simp only
      rw [hq]
      rfl
  obtain ⟨r, hr⟩ := main ns (dsInit ev) (Nat.le_refl _) (by simpa [dsInit] using hlt) hn
  rw [hr]
  exact Out.defined_ok _

example : ∃ s, dsReads (dsInit [([1, 2], none), ([3], none), ([4, 5, 6], none)]) [1, 3, 5, 2] =
    .ok ([.ok [1], .ok [2, 3, 4], .error .format, .ok [5, 6]], s) :=
  C29_history [[1, 2], [3], [4, 5, 6]] [1, 3, 5, 2] (by decide)

/-! ## C30 -/

/-- C30 (proved part): if no chunk fails with `DRPM_ERR_FORMAT`, reading until the end returns the
    whole payload or fails. Missing: chunks that do fail with it, see `C30_violated`. -/
theorem C30_partial (ev : Events) (hf : ∀ x ∈ ev, x.2 ≠ some .format) (d : Bytes) (s : DStrm)
    (h : dsReadAll (dsInit ev) = .ok (.ok d, s)) :
    Clean ev ∧ d = (ev.map (·.1)).flatten := by
  have key : ∀ (ev : Events), (∀ x ∈ ev, x.2 ≠ some .format) → ∀ (s : DStrm), s.input = ev → ∀ fuel s',
      dsDrain fuel s = .ok (none, s') → Clean ev ∧ s'.pos = s.pos ∧
        s'.data = s.data ++ (ev.map (·.1)).flatten := by
    intro ev
    induction ev with
    | nil =>
      intro _ s hin fuel s' h
      cases fuel with
      | zero => cases h
      | succ fuel =>
        simp only [dsDrain, dsChunk, hin, Out.ok.injEq, Prod.mk.injEq, true_and] at h
        subst h
        exact ⟨(fun x hx => by cases hx), rfl, by simp⟩
    | cons x ev ih =>
      intro hf s hin fuel s' h
      obtain ⟨b, e⟩ := x
      cases fuel with
      | zero => cases h
      | succ fuel =>
        have hc : dsChunk s = (e, { s with data := s.data ++ b, input := ev }) := by
          simp [dsChunk, hin]
        rw [dsDrain, hc] at h
        cases e with
        | none =>
          obtain ⟨h1, h2, h3⟩ := ih (fun y hy => hf y (by simp [hy])) _ rfl fuel s' h
          refine ⟨?_, h2, by rw [h3]; simp⟩
          intro y hy
          simp only [List.mem_cons] at hy
          rcases hy with rfl | hy
          · rfl
          · exact h1 y hy
        | some e =>
          have := hf (b, some e) (by simp)
          cases e <;> first | exact absurd rfl this | simp at h
  unfold dsReadAll at h
  rw [Out.bind_eq_ok] at h
  obtain ⟨⟨e, s1⟩, h1, h⟩ := h
  cases e with
  | some e => simp at h
  | none =>
    obtain ⟨k1, k2, k3⟩ := key ev hf (dsInit ev) rfl _ _ h1
    simp only [Out.ok.injEq, Prod.mk.injEq, Except.ok.injEq] at h
    obtain ⟨rfl, _⟩ := h
    refine ⟨k1, ?_⟩
    rw [k3, k2]
    simp [dsInit]

example : ∃ s, dsReadAll (dsInit [([1, 2], none), ([3], none)]) = .ok (.ok [1, 2, 3], s) := ⟨_, rfl⟩
example : ∃ s, dsReadAll (dsInit [([1, 2], none), ([3], some .memory)]) = .ok (.error .memory, s) :=
  ⟨_, rfl⟩

/-- C30 is violated: if some chunk is corrupt and the decoder says so with `DRPM_ERR_FORMAT`,
    everything after it is dropped and the read succeeds with the shortened payload. -/
theorem C30_violated (good : List Bytes) (bad : Bytes) (after : Events) :
    ∃ s, dsReadAll (dsInit (good.map (fun b => (b, none)) ++ (bad, some .format) :: after)) =
      .ok (.ok (good.flatten ++ bad), s) := by
  have key : ∀ (good : List Bytes) (s : DStrm) fuel,
      s.input = good.map (fun b => (b, none)) ++ (bad, some .format) :: after → good.length < fuel →
      ∃ s', dsDrain fuel s = .ok (none, s') ∧ s'.pos = s.pos ∧ s'.data = s.data ++ good.flatten ++ bad := by
    intro good
    induction good with
    | nil =>
      intro s fuel hin hf
      obtain ⟨fuel, rfl⟩ : ∃ k, fuel = k + 1 := ⟨fuel - 1, by simp at hf; omega⟩
      simp only [List.map_nil, List.nil_append] at hin
      simp only [dsDrain, dsChunk, hin]
      exact ⟨_, rfl, rfl, by simp⟩
    | cons g good ih =>
      intro s fuel hin hf
      obtain ⟨fuel, rfl⟩ : ∃ k, fuel = k + 1 := ⟨fuel - 1, by simp at hf; omega⟩
      simp only [List.map_cons, List.cons_append] at hin
      simp only [dsDrain, dsChunk, hin]
      obtain ⟨s', h1, h2, h3⟩ := ih { s with data := s.data ++ g, input := _ } fuel rfl
        (by simp at hf; omega)
      exact ⟨s', h1, h2, by rw [h3]; simp⟩
  obtain ⟨s', h1, h2, h3⟩ := key good (dsInit (good.map (fun b => (b, none)) ++ (bad, some .format) :: after))
    ((dsInit (good.map (fun b => (b, none)) ++ (bad, some .format) :: after)).input.length + 1) rfl
    (by simp [dsInit]; omega)
  unfold dsReadAll
  rw [h1, Out.bind_ok]
  refine ⟨{ s' with pos := s'.data.length }, ?_⟩
  simp only
  rw [h3, h2]
  simp [dsInit]

/-- C30 is violated: a payload that is cut off anywhere between chunks is accepted as the shorter
    payload; nothing tells its end from the end of the stream. -/
theorem C30_violated_truncation (chunks : List Bytes) (k : Nat) :
    ∃ s, dsReadAll (dsInit ((chunks.map (fun b => (b, none))).take k)) =
      .ok (.ok (chunks.take k).flatten, s) := by
  rw [← List.map_take]
  rcases dsDrain_spec ((chunks.take k).map (fun b => (b, none))) (dsInit _) rfl _ (Nat.lt_succ_self _)
    with ⟨s', h1, h2, _, h4⟩ | ⟨e, s', _, _, h3⟩
  · have h4 := h4 (clean_plain (chunks.take k))
    have hav := available_plain (chunks.take k)
    unfold plainEvents at hav
    refine ⟨{ s' with pos := s'.data.length }, ?_⟩
    unfold dsReadAll
    simp only [dsInit] at h1 h2 h4 ⊢
    rw [h1, Out.bind_ok]
    simp only
    rw [h4, h2, hav]
    simp
  · exact absurd (clean_plain (chunks.take k)) h3

/-! ## C32 -/

/-- C32 (proved part): an uncompressed add block of at least eight bytes that does not begin with
    the magic bytes of a compression method is read back as it is, by any series of reads.
    Missing: shorter blocks and blocks that look compressed, see `C32_violated_short` and
    `C32_violated_magic`. -/
theorem C32_partial (dec : ChunkDecoder) (add : Bytes) (hl : 8 ≤ add.length)
    (hno : ∀ c, c ≠ .none → ¬ magicBytes c <+: add) (ns : List Nat)
    (hn : ∀ n ∈ ns, add.length + n < 2^64) :
    ∃ s s', dsInitMem dec add = .ok (.none, s) ∧ dsReads s ns = .ok (readsSpec add 0 ns, s') := by
  have hfl : (memPieces (add.length + 1) add).flatten = add := memPieces_flatten _ _ (by omega)
  obtain ⟨s', hs'⟩ := C29_history (memPieces (add.length + 1) add) ns (by rw [hfl]; exact hn)
  refine ⟨_, s', ?_, by rw [hfl] at hs'; exact hs'⟩
  obtain ⟨m, hm, hd⟩ := detect_iff add hl
  have hnone : detectComp m = .none := by
    by_cases h : detectComp m = .none
    · exact h
    · exact absurd ((hd _ h).1 rfl) (hno _ h)
  unfold dsInitMem
  rw [if_neg (by omega), hm, Out.bind_ok]
  simp only [hnone]
  rfl

example : ∀ c, c ≠ .none → ¬ magicBytes c <+: [0, 0, 0, 1, 0, 0, 0, 0, 7] := by
  intro c; cases c <;> decide

/-- C32 is violated: an uncompressed add block of one to seven bytes cannot be opened. -/
theorem C32_violated_short (dec : ChunkDecoder) (add : Bytes) (_h1 : 0 < add.length)
    (h7 : add.length < 8) : dsInitMem dec add = .err .prog := by
  unfold dsInitMem
  rw [if_pos h7]

/-- C32 is violated: an uncompressed add block that begins with the magic bytes of a method is
    handed to the decoder of that method. -/
theorem C32_violated_magic (dec : ChunkDecoder) (add : Bytes) (c : Comp) (hc : c ≠ .none)
    (hl : 8 ≤ add.length) (hm : magicBytes c <+: add) :
    dsInitMem dec add = .ok (c, dsInit (dec c add)) := by
  obtain ⟨m, e, hd⟩ := detect_iff add hl
  have := (hd c hc).2 hm
  unfold dsInitMem
  rw [if_neg (by omega), e, Out.bind_ok]
  simp only [this]

example : magicBytes .gzip <+: [0x1F, 0x8B, 0, 0, 0, 0, 0, 0] := by decide

end Drpm
