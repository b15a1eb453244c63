import Verif.CodecLemmas
import Verif.Props.Stream
import Verif.Make
/-!
# Compressed streams, down to the calls of the libraries (C59, C60, C61)
-/

namespace Drpm

/-! ## C59: decompression is complete -/

theorem wholeReads_eq (total : Bytes) (ns : List Nat) : ∀ pos, wholeReads total pos ns = readsSpec total pos ns := by
  induction ns with
  | nil => intro pos; rfl
  | cons n ns ih =>
    intro pos
    rw [wholeReads, readsSpec, ih, ih]
    rfl

theorem events_plain {ev : Events} (h : Clean ev) : ev = (ev.map (·.1)).map (fun b => (b, none)) := by
  induction ev with
  | nil => rfl
  | cons x ev ih =>
    rw [List.map_cons, List.map_cons, ← ih (fun y hy => h y (List.mem_cons_of_mem _ hy))]
    have := h x List.mem_cons_self
    obtain ⟨b, e⟩ := x
    simp only at this
    rw [this]

theorem readsWhole_of {σ : Type} {z p : Bytes} {r : Out (Events × UnpackSt σ)} {ev : Events} {s : UnpackSt σ}
    (hr : r = .ok (ev, s)) (hc : Clean ev) (hd : (ev.map (·.1)).flatten = p) (h1 : s.compSize = z.length) (h2 : s.md5 = z) :
    ReadsWhole z p r := by
  refine ⟨ev, s, hr, h1, h2, ?_, ?_⟩
  · rcases dsDrain_spec ev (dsInit ev) rfl (ev.length + 1) (by omega) with ⟨s', a1, a2, _, a4⟩ | ⟨e, s', _, _, a3⟩
    · refine ⟨{ s' with pos := s'.data.length }, ?_⟩
      · unfold dsReadAll
        rw [show (dsInit ev).input.length = ev.length from rfl, a1, Out.bind_ok]
        simp only
        have a4 := a4 hc
        rw [a2]
        have hav : available ev = p := by
          conv => lhs; rw [events_plain hc]
          rw [← hd]
          exact available_plain _
        have : s'.data = p := by rw [a4, hav]; rfl
        rw [this]
        rfl
    · exact absurd hc a3
  · intro ns hn
    obtain ⟨t, ht⟩ := C29_history (ev.map (·.1)) ns (by rw [hd]; exact hn)
    rw [← events_plain hc, hd] at ht
    exact ⟨t, by rw [ht, wholeReads_eq]⟩

/-- The state a decompression stream starts in. -/
def decInit {σ : Type} (s0 : σ) : UnpackSt σ := ⟨s0, 0, []⟩

theorem readPieces_inflates {σ ρ : Type} {call : LibCall σ ρ} {fine : ρ → Prop} {R : σ → Bytes → Bytes → Prop}
    (h : Inflates call fine R) {verdict : ρ → Option Err} (hv : ∀ c, fine c → verdict c = none)
    (s0 : σ) (z p : Bytes) (hs : R s0 z p) (pieces : List Bytes) (hp : pieces.flatten = z) (hne : [] ∉ pieces) (hz : z ≠ [])
    (hlen : z.length < 2^64) (fuel : Nat) (hf : p.length < fuel) :
    ReadsWhole z p (readPieces (fun s b => roomLoop call verdict fuel s b []) (decInit s0) pieces) := by
  obtain ⟨ev, s', o, k1, k2, k3, k4, _, k6, k7, k8⟩ := readPieces_ok (E := fun q => q = [])
    (R := fun s z' p' => R s z' p' ∧ p'.length ≤ p.length)
    (run := fun s b => roomLoop call verdict fuel s b [])
    (by
      intro s z' p' b hR hb _ _
      obtain ⟨s', o, g1, g2, g3, g4⟩ := roomLoop_inflates h hv fuel s z' p' b [] hR.1 hb (by omega)
      refine ⟨s', o, ?_, g2, ⟨g3, ?_⟩, g4⟩
      · simpa using g1
      · rw [List.length_drop]; omega)
    pieces (decInit s0) z p ⟨hs, Nat.le_refl _⟩ hp hne (fun h => absurd h hz) (by simp only [decInit]; omega)
  have := prefix_all k4 k6
  subst this
  exact readsWhole_of k1 k2 k3 (by rw [k7]; simp [decInit]) (by rw [k8]; simp [decInit])

/-- C59 for gzip: a valid stream `z` of `p`, read from the file in any pieces, gives all of `p`. -/
theorem C59_gzip {σ : Type} {inflate : LibCall σ ZCode} {R : σ → Bytes → Bytes → Prop} (h : Inflates inflate zFine R)
    (s0 : σ) (z p : Bytes) (hs : R s0 z p) (pieces : List Bytes) (hp : pieces.flatten = z) (hne : [] ∉ pieces)
    (hz : z ≠ []) (hlen : z.length < 2^64) (fuel : Nat) (hf : p.length < fuel) :
    ReadsWhole z p (gunzip inflate fuel (decInit s0) pieces) :=
  readPieces_inflates h (fun c hc => by rcases hc with rfl | rfl | rfl <;> rfl) s0 z p hs pieces hp hne hz hlen fuel hf

/-- C59 for bzip2. -/
theorem C59_bzip2 {σ : Type} {bzDecompress : LibCall σ BzCode} {R : σ → Bytes → Bytes → Prop}
    (h : Inflates bzDecompress bzFine R)
    (s0 : σ) (z p : Bytes) (hs : R s0 z p) (pieces : List Bytes) (hp : pieces.flatten = z) (hne : [] ∉ pieces)
    (hz : z ≠ []) (hlen : z.length < 2^64) (fuel : Nat) (hf : p.length < fuel) :
    ReadsWhole z p (bunzip bzDecompress fuel (decInit s0) pieces) :=
  readPieces_inflates h (fun c hc => by rcases hc with rfl | rfl | rfl <;> rfl) s0 z p hs pieces hp hne hz hlen fuel hf

/-- C59 for lzma and xz. -/
theorem C59_lzma {σ : Type} {lzmaCode : LibCall σ LzmaCode} {R : σ → Bytes → Bytes → Prop}
    (h : Inflates lzmaCode lzmaFine R)
    (s0 : σ) (z p : Bytes) (hs : R s0 z p) (pieces : List Bytes) (hp : pieces.flatten = z) (hne : [] ∉ pieces)
    (hz : z ≠ []) (hlen : z.length < 2^64) (fuel : Nat) (hf : p.length < fuel) :
    ReadsWhole z p (unlzma lzmaCode fuel (decInit s0) pieces) :=
  readPieces_inflates h (fun c hc => by rcases hc with rfl | rfl <;> rfl) s0 z p hs pieces hp hne hz hlen fuel hf

/-- C59 for lzip. -/
theorem C59_lzip {σ : Type} {L : LzDec σ} {R : σ → Bytes → Bytes → Bool → Prop} (h : LzInflates L R)
    (s0 : σ) (z p : Bytes) (hs : R s0 z p false) (pieces : List Bytes) (hp : pieces.flatten = z) (hne : [] ∉ pieces)
    (hlen : z.length < 2^64) (fuel : Nat) (hf : z.length + p.length < fuel) :
    ReadsWhole z p (unlzip L fuel (decInit s0) pieces) := by
  obtain ⟨ev, s', o, k1, k2, k3, k4, k5, _, k7, k8⟩ := readPieces_ok (E := fun _ => True)
    (R := fun s z' p' => R s z' p' false ∧ z'.length ≤ z.length ∧ p'.length ≤ p.length)
    (run := fun s b => lzPiece L fuel s b [])
    (by
      intro s z' p' b hR hb _ hbl
      obtain ⟨s', o, g1, g2, g3⟩ := lzPiece_inflates h fuel s z' p' b [] hR.1 hb (by omega)
      refine ⟨s', o, ?_, g2, ⟨g3, ?_, ?_⟩, fun _ => trivial⟩
      · simpa using g1
      · rw [List.length_drop]; omega
      · rw [List.length_drop]; omega)
    pieces (decInit s0) z p ⟨hs, Nat.le_refl _, Nat.le_refl _⟩ hp hne (fun _ => trivial) (by simp only [decInit]; omega)
  obtain ⟨s2, hr⟩ := lzRest_inflates h fuel (L.finish s'.lib) (p.drop o.length) [] (h.finish _ _ k5.1) (by omega)
  refine readsWhole_of (ev := ev ++ [(p.drop o.length, none)]) (s := { s' with lib := s2 }) ?_ ?_ ?_
    (by rw [k7]; simp [decInit]) (by rw [k8]; simp [decInit])
  · unfold unlzip
    rw [k1, Out.bind_ok]
    simp only
    rw [hr, Out.bind_ok]
    simp
  · intro x hx
    rcases List.mem_append.mp hx with hx | hx
    · exact k2 x hx
    · rw [List.mem_singleton] at hx
      rw [hx]
  · rw [List.map_append, List.flatten_append, k3]
    simp only [List.map_cons, List.map_nil, List.flatten_cons, List.flatten_nil, List.append_nil]
    exact (prefix_split k4).symm

/-- C59 without compression (src/drpm_decompstrm.c:453-485). -/
theorem C59_none (z : Bytes) (pieces : List Bytes) (hp : pieces.flatten = z) :
    (∃ t, dsReadAll (dsInit (plainEvents pieces)) = .ok (.ok z, t)) ∧
    ∀ ns : List Nat, (∀ n ∈ ns, z.length + n < 2^64) →
      ∃ t, dsReads (dsInit (plainEvents pieces)) ns = .ok (wholeReads z 0 ns, t) := by
  have := readsWhole_of (σ := Unit) (z := z) (p := z) (r := .ok (plainEvents pieces, ⟨(), z.length, z⟩)) rfl
    (clean_plain pieces) (by rw [← hp]; simp [plainEvents, Function.comp_def]) rfl rfl
  obtain ⟨ev, s, h1, _, _, h4, h5⟩ := this.gives
  cases h1
  exact ⟨h4, h5⟩

/-- C59 for zstd (proved part): if the decoder takes the last byte of the input only when it puts out
    everything with it, nothing is lost. (This is so for frames with a checksum, which the decoder
    reads after it has flushed.) Missing: other streams, see `C59_violated`. -/
theorem C59_partial {σ : Type} {decompressStream : LibCall σ ZstdCode} {R : σ → Bytes → Bytes → Prop}
    (h : ZstdInflates decompressStream R) (hlast : ∀ s p, R s [] p → p = [])
    (s0 : σ) (z p : Bytes) (hs : R s0 z p) (pieces : List Bytes) (hp : pieces.flatten = z) (hne : [] ∉ pieces)
    (hlen : z.length < 2^64) (room : Nat) (hroom : 0 < room) (fuel : Nat) (hf : z.length + p.length < fuel) :
    ReadsWhole z p (unzstd decompressStream room fuel (decInit s0) pieces) := by
  obtain ⟨ev, s', o, k1, k2, k3, k4, k5, _, k7, k8⟩ := readPieces_ok (E := fun _ => True)
    (R := fun s z' p' => R s z' p' ∧ z'.length ≤ z.length ∧ p'.length ≤ p.length)
    (run := fun s b => inputLoop decompressStream room fuel s b [])
    (by
      intro s z' p' b hR hb _ hbl
      obtain ⟨s', o, g1, g2, g3⟩ := inputLoop_inflates h hroom fuel s z' p' b [] hR.1 hb (by omega)
      refine ⟨s', o, ?_, g2, ⟨g3, ?_, ?_⟩, fun _ => trivial⟩
      · simpa using g1
      · rw [List.length_drop]; omega
      · rw [List.length_drop]; omega)
    pieces (decInit s0) z p ⟨hs, Nat.le_refl _, Nat.le_refl _⟩ hp hne (fun _ => trivial) (by simp only [decInit]; omega)
  have := prefix_all k4 (hlast _ _ k5.1)
  subst this
  exact readsWhole_of k1 k2 k3 (by rw [k7]; simp [decInit]) (by rw [k8]; simp [decInit])

/-! ### Libraries that keep the promises -/

/-- What a stream of the toy compression stands for: every byte is to be repeated `k` times. -/
def runPlain (k : Nat) (z : Bytes) : Bytes := z.flatMap (fun b => List.replicate k b)

/-- A decoder for it. Its state holds what is still to be put out; all input is taken at once. -/
def runCall {ρ : Type} (c : ρ) (k : Nat) : LibCall Bytes ρ := fun s inp room =>
  ⟨(s ++ runPlain k inp).drop room, inp.length, (s ++ runPlain k inp).take room, c⟩

theorem runPlain_append (k : Nat) (a b : Bytes) : runPlain k (a ++ b) = runPlain k a ++ runPlain k b := by
  simp [runPlain]

theorem runCall_next {ρ : Type} (c : ρ) (k : Nat) (s z p inp : Bytes) (room : Nat) (h : p = s ++ runPlain k z)
    (hi : inp <+: z) :
    (runCall c k s inp room).out <+: p ∧
    p.drop (runCall c k s inp room).out.length = (runCall c k s inp room).st ++ runPlain k (z.drop inp.length) := by
  have e : p = (runCall c k s inp room).out ++ ((runCall c k s inp room).st ++ runPlain k (z.drop inp.length)) := by
    simp only [runCall]
    rw [← List.append_assoc, List.take_append_drop, List.append_assoc, ← runPlain_append, ← prefix_split hi, h]
  generalize (runCall c k s inp room).out = o at *
  subst e
  exact ⟨List.prefix_append _ _, by rw [List.drop_left]⟩

theorem runCall_complete {ρ : Type} (c : ρ) (k : Nat) (s z p inp : Bytes) (room : Nat) (h : p = s ++ runPlain k z)
    (hi : inp <+: z) (hr : (runCall c k s inp room).out.length < room) (hz : z.drop inp.length = []) :
    p.drop (runCall c k s inp room).out.length = [] := by
  rw [(runCall_next c k s z p inp room h hi).2, hz]
  simp only [runCall, List.length_take] at hr ⊢
  rw [List.drop_eq_nil_of_le (by omega)]
  rfl

theorem runCall_inflates {ρ : Type} (c : ρ) (fine : ρ → Prop) (hc : fine c) (k : Nat) :
    Inflates (runCall c k) fine (fun s z p => p = s ++ runPlain k z) where
  code := fun _ _ _ _ _ _ _ _ => hc
  used := fun _ _ _ _ _ _ _ _ => Nat.le_refl _
  room := fun s z p inp room _ _ _ => by simp only [runCall, List.length_take]; omega
  out := fun s z p inp room h hi _ => (runCall_next c k s z p inp room h hi).1
  next := fun s z p inp room h hi _ => (runCall_next c k s z p inp room h hi).2
  stops := fun _ _ _ _ _ _ _ _ _ => rfl
  complete := fun s z p inp room h hi _ hr hz => runCall_complete c k s z p inp room h hi hr hz

theorem runCall_zstd (k : Nat) : ZstdInflates (runCall (.hint 0) k) (fun s z p => p = s ++ runPlain k z) where
  code := fun _ _ _ _ _ _ _ _ => by simp [runCall]
  used := fun _ _ _ _ _ _ _ _ => Nat.le_refl _
  room := fun s z p inp room _ _ _ => by simp only [runCall, List.length_take]; omega
  out := fun s z p inp room h hi _ => (runCall_next _ k s z p inp room h hi).1
  next := fun s z p inp room h hi _ => (runCall_next _ k s z p inp room h hi).2
  progress := fun _ _ _ _ _ _ _ _ hne => Or.inl (List.length_pos_iff.mpr hne)
  complete := fun s z p inp room h hi _ hr hz => runCall_complete _ k s z p inp room h hi hr hz

/-- `3 * k` bytes come out of a stream of three bytes, read in two pieces. -/
example (k fuel : Nat) (h : 3 * k < fuel) : ReadsWhole [7, 8, 9] (runPlain k [7, 8, 9])
    (gunzip (runCall .ok k) fuel (decInit []) [[7], [8, 9]]) :=
  C59_gzip (runCall_inflates .ok zFine (Or.inl rfl) k) [] [7, 8, 9] _ (List.nil_append _).symm [[7], [8, 9]] rfl (by decide)
    (by decide) (by decide) fuel (by simp [runPlain]; omega)

example (k fuel : Nat) (h : 3 * k < fuel) : ReadsWhole [7, 8, 9] (runPlain k [7, 8, 9])
    (bunzip (runCall .ok k) fuel (decInit []) [[7], [8, 9]]) :=
  C59_bzip2 (runCall_inflates .ok bzFine (Or.inl rfl) k) [] [7, 8, 9] _ (List.nil_append _).symm [[7], [8, 9]] rfl (by decide)
    (by decide) (by decide) fuel (by simp [runPlain]; omega)

example (k fuel : Nat) (h : 3 * k < fuel) : ReadsWhole [7, 8, 9] (runPlain k [7, 8, 9])
    (unlzma (runCall .streamEnd k) fuel (decInit []) [[7], [8, 9]]) :=
  C59_lzma (runCall_inflates .streamEnd lzmaFine (Or.inr rfl) k) [] [7, 8, 9] _ (List.nil_append _).symm [[7], [8, 9]] rfl (by decide)
    (by decide) (by decide) fuel (by simp [runPlain]; omega)

/-- C59 is violated by zstd's loop: there is a decoder that keeps the promises zstd makes, and a valid
    stream of which one read of everything returns only the first part, and reports success. The loop
    ends when the input has been taken, although the output buffer is full and the decoder holds more. -/
theorem C59_violated (room : Nat) :
    ∃ (call : LibCall Bytes ZstdCode) (R : Bytes → Bytes → Bytes → Prop) (p : Bytes), ZstdInflates call R ∧ R [] [7] p ∧
      p.length = 2 * room ∧
      ∀ fuel, 2 ≤ fuel → ∃ ev s t, unzstd call room fuel (decInit []) [[7]] = .ok (ev, s) ∧
        dsReadAll (dsInit ev) = .ok (.ok (p.take room), t) := by
  refine ⟨runCall (.hint 0) (2 * room), _, runPlain (2 * room) [7], runCall_zstd (2 * room), rfl, ?_, ?_⟩
  · simp [runPlain]
  · intro fuel hf
    obtain ⟨fuel, rfl⟩ : ∃ n, fuel = n + 2 := ⟨fuel - 2, by omega⟩
    refine ⟨[((runPlain (2 * room) [7]).take room, none)], ⟨(runPlain (2 * room) [7]).drop room, 1, [7]⟩, ?_⟩
    have h1 : unzstd (runCall (.hint 0) (2 * room)) room (fuel + 2) (decInit []) [[7]] =
        .ok ([((runPlain (2 * room) [7]).take room, none)], ⟨(runPlain (2 * room) [7]).drop room, 1, [7]⟩) := by
      simp only [unzstd, readPieces, readPiece, inputLoop, runCall, decInit, zstdVerdict]
      simp
    exact ⟨_, h1, rfl⟩

/-- The same with what zstd recommends as the size of the buffer: of 256 KiB the first half is read. -/
example : ∃ (call : LibCall Bytes ZstdCode) (R : Bytes → Bytes → Bytes → Prop) (p : Bytes), ZstdInflates call R ∧ R [] [7] p ∧
      p.length = 262144 ∧ ∀ fuel, 2 ≤ fuel → ∃ ev s t, unzstd call 131072 fuel (decInit []) [[7]] = .ok (ev, s) ∧
        dsReadAll (dsInit ev) = .ok (.ok (p.take 131072), t) := C59_violated 131072

/-- A decoder for stored data that takes no more input than it can put out. -/
def storeCall : LibCall Unit ZstdCode := fun _ inp room => ⟨(), min inp.length room, inp.take room, .hint 1⟩

theorem storeCall_zstd : ZstdInflates storeCall (fun _ z p => p = z) where
  code := fun _ _ _ _ _ _ _ _ => by simp [storeCall]
  used := fun _ _ _ inp _ _ _ _ => Nat.min_le_left _ _
  room := fun _ _ _ inp room _ _ _ => by simp only [storeCall, List.length_take]; omega
  out := fun _ z p inp room h hi _ => by rw [h]; exact (List.take_prefix _ _).trans hi
  next := fun _ z p inp room h _ _ => by rw [h]; simp only [storeCall, List.length_take]; rw [Nat.min_comm]
  progress := fun _ _ _ inp room _ _ hr hne => Or.inl (by
    have := List.length_pos_iff.mpr hne
    simp only [storeCall]; omega)
  complete := fun _ z p inp room h _ _ _ hz => by
    rw [h]; simp only [storeCall, List.length_take] at hz ⊢; rw [Nat.min_comm]; exact hz

example : ReadsWhole [7, 8, 9, 10, 11] [7, 8, 9, 10, 11]
    (unzstd storeCall 2 100 (decInit ()) [[7, 8, 9, 10], [11]]) :=
  C59_partial storeCall_zstd (fun _ _ h => h) () [7, 8, 9, 10, 11] _ rfl [[7, 8, 9, 10], [11]] rfl (by decide) (by decide)
    2 (by decide) 100 (by decide)

/-- A decoder of lzlib's kind for stored data, with room for four bytes of input; the state also tells
    whether the end was announced. -/
def storeLz : LzDec (Bytes × Bool) where
  writeSize := fun s => 4 - s.1.length
  write := fun s inp => some ((s.1 ++ inp.take (4 - s.1.length), s.2), min inp.length (4 - s.1.length))
  read := fun s room => some ((s.1.drop room, s.2), s.1.take room)
  finish := fun s => (s.1, true)
  finished := fun s => s.2 && s.1.isEmpty
  error := fun _ => .other

theorem storeLz_inflates : LzInflates storeLz (fun s z p f => p = s.1 ++ z ∧ s.2 = f ∧ s.1.length ≤ 4) where
  write := by
    rintro ⟨b, f⟩ z p inp ⟨hp, hf, hl⟩ hi hne hw
    have hpos := List.length_pos_iff.mpr hne
    simp only [storeLz] at hw hl ⊢
    refine ⟨_, _, rfl, by omega, by omega, ?_, hf, ?_⟩
    · rw [hp]
      simp only [List.append_assoc]
      congr 1
      have : inp.take (4 - b.length) = z.take (min inp.length (4 - b.length)) := by
        obtain ⟨t, rfl⟩ := hi
        rw [List.take_append_of_le_length (by omega), Nat.min_comm, ← List.take_take, List.take_length]
      rw [this, List.take_append_drop]
    · simp only [List.length_append, List.length_take]; omega
  read := by
    rintro ⟨b, f⟩ z p room ⟨hp, hf, hl⟩ hr
    simp only [storeLz] at hl ⊢
    refine ⟨_, _, rfl, by simp only [List.length_take]; omega, ?_, ⟨?_, hf, ?_⟩, ?_⟩
    · rw [hp]; exact (List.take_prefix _ _).trans (List.prefix_append _ _)
    · rw [hp]
      simp only [List.length_take]
      rw [List.drop_append_of_le_length (by omega)]
      congr 1
      by_cases h : room ≤ b.length
      · rw [Nat.min_eq_left h]
      · rw [Nat.min_eq_right (by omega), List.drop_eq_nil_of_le (by omega), List.drop_eq_nil_of_le (by omega)]
    · simp only [List.length_drop]; omega
    · intro hw ho
      have := congrArg List.length ho
      simp only [List.length_take, List.length_nil] at this
      omega
  finish := by
    rintro ⟨b, f⟩ p ⟨hp, hf, hl⟩
    exact ⟨hp, rfl, hl⟩
  rest := by
    rintro ⟨b, f⟩ p room ⟨hp, hf, hl⟩ hr
    simp only [storeLz] at hl hp hf ⊢
    rw [List.append_nil] at hp
    subst hp
    subst hf
    refine ⟨_, _, rfl, by simp only [List.length_take]; omega, List.take_prefix _ _, ⟨?_, rfl, ?_⟩, ?_, ?_⟩
    · simp only [List.length_take, List.append_nil]
      by_cases h : room ≤ p.length
      · rw [Nat.min_eq_left h]
      · rw [Nat.min_eq_right (by omega), List.drop_eq_nil_of_le (by omega), List.drop_eq_nil_of_le (by omega)]
    · simp only [List.length_drop]; omega
    · intro h
      simp only [Bool.true_and, List.isEmpty_iff] at h
      rw [List.length_take]
      have := congrArg List.length h
      rw [List.length_drop, List.length_nil] at this
      exact List.drop_eq_nil_of_le (by omega)
    · intro h ho
      have h1 := congrArg List.length ho
      simp only [List.length_take, List.length_nil] at h1
      have : p = [] := List.length_eq_zero_iff.mp (by omega)
      subst this
      simp at h

example : ReadsWhole [7, 8, 9, 10, 11, 12] [7, 8, 9, 10, 11, 12]
    (unlzip storeLz 100 (decInit ([], false)) [[7, 8, 9, 10, 11], [12]]) :=
  C59_lzip storeLz_inflates ([], false) [7, 8, 9, 10, 11, 12] _ ⟨rfl, rfl, by decide⟩ [[7, 8, 9, 10, 11], [12]] rfl (by decide)
    (by decide) 100 (by decide)

/-! ## C60: compression loses nothing -/

theorem csRun_lib {σ : Type} {write : σ → Bytes → Out (σ × Bytes × Option Err)} {fin : σ → Out (Bytes × Option Err)}
    {Valid : Bytes → Bytes → Prop} {R : σ → Bytes → Bytes → Prop} {s0 : σ} (total : Nat) (f0 : Bytes)
    (hw : ∀ s x y b, R s x y → b ≠ [] → b.length < 2^32 → x.length + b.length ≤ total →
      ∃ s' o, write s b = .ok (s', o, none) ∧ R s' (x ++ b) (y ++ o))
    (hf : ∀ s x y, R s x y → x.length ≤ total → ∃ o, fin s = .ok (o, none) ∧ Valid x (y ++ o)) :
    ∀ (bs : List Bytes) (s : CStrm σ) x, R s.st x s.data → s.pos = s.data.length → s.fd = true → s.finished = false →
      s.file = f0 ++ s.data → (∀ b ∈ bs, b.length < 2^32) → x.length + bs.flatten.length ≤ total →
      ∃ y s', csRun (libEnc s0 write fin) s (bs.map COp.write ++ [.finish]) =
        (s', bs.map (fun _ => (none, none)) ++ [(none, some y)]) ∧ s'.file = f0 ++ y ∧ Valid (x ++ bs.flatten) y := by
  intro bs
  induction bs with
  | nil =>
    intro s x hR hpos hfd hfin hfile _ ht
    obtain ⟨o, g1, g2⟩ := hf s.st x s.data hR (by simpa using ht)
    refine ⟨s.data ++ o, { s with data := s.data ++ o, finished := true, file := f0 ++ (s.data ++ o) }, ?_, rfl, ?_⟩
    · simp only [List.map_nil, List.nil_append, csRun, csOp, csFinish, hfin, libEnc, g1, Bool.false_eq_true, if_false, hfd,
        if_true, hpos, hfile]
      rw [List.drop_left, List.append_assoc]
    · simpa using g2
  | cons b bs ih =>
    intro s x hR hpos hfd hfin hfile hl ht
    rw [List.flatten_cons, List.length_append] at ht
    by_cases hb : b.length = 0
    · have hb' : b = [] := List.length_eq_zero_iff.mp hb
      obtain ⟨y, s', k1, k2, k3⟩ := ih s x hR hpos hfd hfin hfile (fun c hc => hl c (List.mem_cons_of_mem _ hc)) (by omega)
      refine ⟨y, s', ?_, k2, ?_⟩
      · rw [List.map_cons, List.cons_append, csRun]
        have e : csOp (libEnc s0 write fin) s (.write b) = (none, none, s) := by
          simp only [csOp, csWrite, hfin, hb, Bool.false_eq_true, if_false, if_true]
        simp only [e, k1, List.map_cons, List.cons_append]
      · rw [hb', List.flatten_cons, List.nil_append]
        exact k3
    · obtain ⟨t, o, g1, g2⟩ := hw s.st x s.data b hR (fun h => hb (by rw [h]; rfl)) (hl b List.mem_cons_self) (by omega)
      have e : csOp (libEnc s0 write fin) s (.write b) =
          (none, none, { s with data := s.data ++ o, st := t, file := f0 ++ (s.data ++ o), pos := (s.data ++ o).length }) := by
        simp only [csOp, csWrite, hfin, hb, Bool.false_eq_true, if_false, libEnc, g1, hfd, if_true, hpos, hfile]
        rw [List.drop_left, List.append_assoc]
      obtain ⟨y, s', k1, k2, k3⟩ := ih
        { s with data := s.data ++ o, st := t, file := f0 ++ (s.data ++ o), pos := (s.data ++ o).length }
        (x ++ b) g2 rfl hfd hfin rfl (fun c hc => hl c (List.mem_cons_of_mem _ hc)) (by rw [List.length_append]; omega)
      refine ⟨y, s', ?_, k2, ?_⟩
      · rw [List.map_cons, List.cons_append, csRun]
        simp only [e, k1, List.map_cons, List.cons_append]
      · rw [List.flatten_cons, ← List.append_assoc]
        exact k3

/-- What is to be shown of a compression stream on a file that holds `f0`: for the writes `bs` and a
    finish, every call succeeds, the finish hands out a compressed form of all that was written, and
    the same is appended to the file. -/
def Compresses {σ : Type} (E : Enc σ) (Valid : Bytes → Bytes → Prop) (f0 : Bytes) (bs : List Bytes) : Prop :=
  ∃ y s, csRun E (csInit E true f0) (bs.map COp.write ++ [.finish]) =
      (s, bs.map (fun _ => (none, none)) ++ [(none, some y)]) ∧ s.file = f0 ++ y ∧ Valid bs.flatten y

theorem compresses_lib {σ : Type} {write : σ → Bytes → Out (σ × Bytes × Option Err)} {fin : σ → Out (Bytes × Option Err)}
    {Valid : Bytes → Bytes → Prop} {R : σ → Bytes → Bytes → Prop} {s0 : σ} (hs : R s0 [] []) (f0 : Bytes) (bs : List Bytes)
    (hl : ∀ b ∈ bs, b.length < 2^32)
    (hw : ∀ s x y b, R s x y → b ≠ [] → b.length < 2^32 → x.length + b.length ≤ bs.flatten.length →
      ∃ s' o, write s b = .ok (s', o, none) ∧ R s' (x ++ b) (y ++ o))
    (hf : ∀ s x y, R s x y → x.length ≤ bs.flatten.length → ∃ o, fin s = .ok (o, none) ∧ Valid x (y ++ o)) :
    Compresses (libEnc s0 write fin) Valid f0 bs := by
  obtain ⟨y, s', h1, h2, h3⟩ := csRun_lib (s0 := s0) bs.flatten.length f0 hw hf bs (csInit (libEnc s0 write fin) true f0) [] hs
    rfl rfl rfl (by simp [csInit]) hl (by simp)
  exact ⟨y, s', h1, h2, by simpa using h3⟩

theorem avail32_eq {b : Bytes} (h : b.length < 2^32) : avail32 b = b := by
  unfold avail32
  rw [Nat.mod_eq_of_lt h, List.take_length]

/-- C60 for gzip. -/
theorem C60_gzip {σ : Type} {deflate : LibCall σ ZCode} {deflateEnd : σ → Nat → LibStep σ ZCode} {B : Nat → Nat}
    {Valid : Bytes → Bytes → Prop} {R F : σ → Bytes → Bytes → Prop} (hB : ∀ a b, a ≤ b → B a ≤ B b)
    (h : Deflates deflate (fun _ => True) B R)
    (hf : Finishes deflateEnd (fun _ => True) (fun _ n => n < chunkSize) chunkSize B Valid F)
    (hRF : ∀ s x y, R s x y → F s x y) (s0 : σ) (hs : R s0 [] []) (f0 : Bytes) (bs : List Bytes)
    (hl : ∀ b ∈ bs, b.length < 2^32) (fuel : Nat) (hfu : B bs.flatten.length < fuel) :
    Compresses (libEnc s0 (gzWrite deflate fuel) (gzFinish deflateEnd fuel)) Valid f0 bs := by
  refine compresses_lib hs f0 bs hl ?_ ?_
  · intro s x y b hR _ hb ht
    have hm := hB _ _ ht
    obtain ⟨s', o, g1, g2⟩ := roomLoop_deflates h hB (verdict := ignoreCode) (fun _ _ => rfl) fuel s x y b [] hR (by omega)
    exact ⟨s', o, by rw [gzWrite, avail32_eq hb]; simpa using g1, g2⟩
  · intro s x y hR ht
    have hm := hB _ _ ht
    obtain ⟨o, g1, g2⟩ := finLoop_finishes hf (verdict := ignoreCode) (fun _ _ => rfl)
      (stop := fun _ n => !(chunkSize - n == 0))
      (fun s x y _ => by
        simp only [Bool.not_eq_true', beq_eq_false_iff_ne, ne_eq]
        omega) fuel s x y [] (hRF s x y hR) (by omega)
    exact ⟨o, by rw [gzFinish]; simpa using g1, g2⟩

/-- C60 for bzip2. -/
theorem C60_bzip2 {σ : Type} {bzCompress : LibCall σ BzCode} {bzEnd : σ → Nat → LibStep σ BzCode} {B : Nat → Nat}
    {Valid : Bytes → Bytes → Prop} {R F : σ → Bytes → Bytes → Prop} (hB : ∀ a b, a ≤ b → B a ≤ B b)
    (h : Deflates bzCompress (fun _ => True) B R)
    (hf : Finishes bzEnd (fun _ => True) (fun c _ => c = .streamEnd) chunkSize B Valid F)
    (hRF : ∀ s x y, R s x y → F s x y) (s0 : σ) (hs : R s0 [] []) (f0 : Bytes) (bs : List Bytes)
    (hl : ∀ b ∈ bs, b.length < 2^32) (fuel : Nat) (hfu : B bs.flatten.length < fuel) :
    Compresses (libEnc s0 (bzWrite bzCompress fuel) (bzFinish bzEnd fuel)) Valid f0 bs := by
  refine compresses_lib hs f0 bs hl ?_ ?_
  · intro s x y b hR _ hb ht
    have hm := hB _ _ ht
    obtain ⟨s', o, g1, g2⟩ := roomLoop_deflates h hB (verdict := ignoreCode) (fun _ _ => rfl) fuel s x y b [] hR (by omega)
    exact ⟨s', o, by rw [bzWrite, avail32_eq hb]; simpa using g1, g2⟩
  · intro s x y hR ht
    have hm := hB _ _ ht
    obtain ⟨o, g1, g2⟩ := finLoop_finishes hf (verdict := ignoreCode) (fun _ _ => rfl)
      (stop := fun c _ => c == .streamEnd) (fun s x y _ => by simp only [beq_iff_eq]) fuel s x y [] (hRF s x y hR) (by omega)
    exact ⟨o, by rw [bzFinish]; simpa using g1, g2⟩

/-- C60 for lzma and xz: while writing, `lzma_code` returns `LZMA_OK`. -/
theorem C60_lzma {σ : Type} {lzmaCode : LibCall σ LzmaCode} {lzmaEnd : σ → Nat → LibStep σ LzmaCode} {B : Nat → Nat}
    {Valid : Bytes → Bytes → Prop} {R F : σ → Bytes → Bytes → Prop} (hB : ∀ a b, a ≤ b → B a ≤ B b)
    (h : Deflates lzmaCode (fun c => c = .ok) B R)
    (hf : Finishes lzmaEnd lzmaFine (fun c _ => c = .streamEnd) chunkSize B Valid F)
    (hRF : ∀ s x y, R s x y → F s x y) (s0 : σ) (hs : R s0 [] []) (f0 : Bytes) (bs : List Bytes)
    (hl : ∀ b ∈ bs, b.length < 2^32) (fuel : Nat) (hfu : B bs.flatten.length < fuel) :
    Compresses (libEnc s0 (lzmaWrite lzmaCode fuel) (lzmaFinish lzmaEnd fuel)) Valid f0 bs := by
  refine compresses_lib hs f0 bs hl ?_ ?_
  · intro s x y b hR _ hb ht
    have hm := hB _ _ ht
    obtain ⟨s', o, g1, g2⟩ := roomLoop_deflates h hB (verdict := lzmaVerdict) (fun c hc => by subst hc; rfl)
      fuel s x y b [] hR (by omega)
    exact ⟨s', o, by rw [lzmaWrite]; simpa using g1, g2⟩
  · intro s x y hR ht
    have hm := hB _ _ ht
    obtain ⟨o, g1, g2⟩ := finLoop_finishes hf (verdict := lzmaFinVerdict) (fun c hc => by rcases hc with rfl | rfl <;> rfl)
      (stop := fun c _ => c == .streamEnd) (fun s x y _ => by simp only [beq_iff_eq]) fuel s x y [] (hRF s x y hR) (by omega)
    exact ⟨o, by rw [lzmaFinish]; simpa using g1, g2⟩

/-- C60 for zstd. -/
theorem C60_zstd {σ : Type} {compressStream : LibCall σ ZstdCode} {compressEnd : σ → Nat → LibStep σ ZstdCode}
    {B : Nat → Nat} {Valid : Bytes → Bytes → Prop} {R F : σ → Bytes → Bytes → Prop} (hB : ∀ a b, a ≤ b → B a ≤ B b)
    (room : Nat) (hroom : 0 < room) (h : Deflates compressStream (fun c => c ≠ .error) B R)
    (hf : Finishes compressEnd (fun c => c ≠ .error) (fun c _ => c = .hint 0) room B Valid F)
    (hRF : ∀ s x y, R s x y → F s x y) (s0 : σ) (hs : R s0 [] []) (f0 : Bytes) (bs : List Bytes)
    (hl : ∀ b ∈ bs, b.length < 2^32) (fuel : Nat) (hfu : bs.flatten.length + B bs.flatten.length < fuel) :
    Compresses (libEnc s0 (zstdWrite compressStream room fuel) (zstdFinish compressEnd room fuel)) Valid f0 bs := by
  have hv : ∀ c : ZstdCode, c ≠ .error → zstdVerdict c = none := by
    intro c hc
    cases c with
    | error => exact absurd rfl hc
    | hint n => rfl
  refine compresses_lib hs f0 bs hl ?_ ?_
  · intro s x y b hR _ hb ht
    have hm := hB _ _ ht
    obtain ⟨s', o, g1, g2⟩ := inputLoop_deflates h hB hv hroom fuel s x y b [] hR (by omega)
    exact ⟨s', o, by rw [zstdWrite]; simpa using g1, g2⟩
  · intro s x y hR ht
    have hm := hB _ _ ht
    obtain ⟨o, g1, g2⟩ := finLoop_finishes hf (verdict := zstdVerdict) hv
      (stop := fun c _ => c == .hint 0) (fun s x y _ => by simp only [beq_iff_eq]) fuel s x y [] (hRF s x y hR) (by omega)
    exact ⟨o, by rw [zstdFinish]; simpa using g1, g2⟩

/-- C60 for lzip. -/
theorem C60_lzip {σ : Type} {L : LzDec σ} {B : Nat → Nat} {Valid : Bytes → Bytes → Prop}
    {R : σ → Bytes → Bytes → Bool → Prop} (hB : ∀ a b, a ≤ b → B a ≤ B b) (h : LzDeflates L B Valid R)
    (s0 : σ) (hs : R s0 [] [] false) (f0 : Bytes) (bs : List Bytes)
    (hl : ∀ b ∈ bs, b.length < 2^32) (fuel : Nat) (hfu : bs.flatten.length + B bs.flatten.length < fuel) :
    Compresses (libEnc s0 (lzipWrite L fuel) (lzipFinish L fuel)) Valid f0 bs := by
  refine compresses_lib (R := fun s x y => R s x y false) hs f0 bs hl ?_ ?_
  · intro s x y b hR _ hb ht
    have hm := hB _ _ ht
    obtain ⟨s', o, g1, g2⟩ := lzPiece_deflates h hB fuel s x y b [] hR (by omega)
    exact ⟨s', o, by rw [lzipWrite]; simpa using g1, g2⟩
  · intro s x y hR ht
    have hm := hB _ _ ht
    obtain ⟨s', o, g1, g2⟩ := lzRest_deflates h fuel (L.finish s) x y [] (h.finish s x y hR) (by omega)
    refine ⟨o, ?_, g2⟩
    rw [lzipFinish, g1, Out.bind_ok]
    simp

/-- C60 and C59 together: what was written to a stream and stored in a file is what is read from it.
    `Valid x y` (what the finished encoder promises) is taken to imply that the decoder accepts `y`
    as a stream of `x`; `open_` and `read` are any of the methods above. -/
theorem C60_roundtrip {σ τ : Type} {E : Enc σ} {Valid : Bytes → Bytes → Prop} {bs : List Bytes}
    (hc : Compresses E Valid [] bs) {read : List Bytes → Out (Events × UnpackSt τ)}
    (hd : ∀ y, Valid bs.flatten y → ∀ pieces : List Bytes, pieces.flatten = y → [] ∉ pieces →
      ReadsWhole y bs.flatten (read pieces)) :
    ∃ s res, csRun E (csInit E true []) (bs.map COp.write ++ [.finish]) = (s, res) ∧ (∀ r ∈ res, r.1 = none) ∧
      ∀ pieces : List Bytes, pieces.flatten = s.file → [] ∉ pieces → ReadsWhole s.file bs.flatten (read pieces) := by
  obtain ⟨y, s, h1, h2, h3⟩ := hc
  rw [List.nil_append] at h2
  refine ⟨s, _, h1, ?_, ?_⟩
  · intro r hr
    rcases List.mem_append.mp hr with hr | hr
    · obtain ⟨_, _, rfl⟩ := List.mem_map.mp hr
      rfl
    · rw [List.mem_singleton] at hr
      rw [hr]
  · rw [h2]
    exact hd y h3

/-! ### Encoders that keep the promises -/

/-- An encoder that stores the data and puts a byte 255 behind it. The state holds what is still to be
    put out, and whether finishing has begun. -/
def endCall {ρ : Type} (c : ρ) : LibCall (Bytes × Bool) ρ := fun s inp room =>
  ⟨((s.1 ++ inp).drop room, false), inp.length, (s.1 ++ inp).take room, c⟩

def endRest (s : Bytes × Bool) : Bytes := if s.2 then s.1 else s.1 ++ [255]

def endFin {ρ : Type} (code : Bytes → ρ) : (Bytes × Bool) → Nat → LibStep (Bytes × Bool) ρ := fun s room =>
  ⟨((endRest s).drop room, true), 0, (endRest s).take room, code ((endRest s).drop room)⟩

def EndR (s : Bytes × Bool) (x y : Bytes) : Prop := s.2 = false ∧ y ++ s.1 = x

def EndF (s : Bytes × Bool) (x y : Bytes) : Prop := y ++ endRest s = x ++ [255]

theorem endRF (s : Bytes × Bool) (x y : Bytes) (h : EndR s x y) : EndF s x y := by
  unfold EndF endRest
  rw [h.1, ← h.2]
  simp

theorem endCall_deflates {ρ : Type} (c : ρ) (fine : ρ → Prop) (hc : fine c) :
    Deflates (endCall c) fine (fun n => n + 1) EndR where
  code := fun _ _ _ _ _ _ _ => hc
  used := fun _ _ _ _ _ _ _ => Nat.le_refl _
  room := fun s x y inp room _ _ => by simp only [endCall, List.length_take]; omega
  next := fun s x y inp room h _ => by
    refine ⟨rfl, ?_⟩
    simp only [endCall, List.take_length]
    rw [List.append_assoc, List.take_append_drop, ← List.append_assoc, h.2]
  stops := fun _ _ _ _ _ _ _ _ => rfl
  bound := fun s x y h => by rw [← h.2, List.length_append]; omega

theorem endFin_finishes {ρ : Type} (code : Bytes → ρ) (fine : ρ → Prop) (hc : ∀ b, fine (code b))
    (done : ρ → Nat → Prop) (room : Nat) (hroom : 0 < room)
    (hd : ∀ b : Bytes, done (code (b.drop room)) (b.take room).length → b.drop room = [])
    (hn : ∀ b : Bytes, ¬ done (code (b.drop room)) (b.take room).length → b ≠ []) :
    Finishes (endFin code) fine done room (fun n => n + 1) (fun x y => y = x ++ [255]) EndF where
  code := fun _ _ _ _ => hc _
  next := fun s x y h => by
    unfold EndF at h ⊢
    rw [← h]
    simp only [endFin, endRest, if_true, List.append_assoc, List.take_append_drop]
  valid := fun s x y h hdone => by
    simp only [endFin] at hdone ⊢
    have := hd _ hdone
    rw [← h]
    congr 1
    have e := List.take_append_drop room (endRest s)
    rw [this, List.append_nil] at e
    exact e
  progress := fun s x y h hdone ho => by
    simp only [endFin] at hdone ho
    have h1 := hn _ hdone
    have h2 := congrArg List.length ho
    have h3 := List.length_pos_iff.mpr h1
    simp only [List.length_take, List.length_nil] at h2
    omega
  bound := fun s x y h => by
    have := congrArg List.length h
    simp only [List.length_append, List.length_cons, List.length_nil] at this
    omega

example (fuel : Nat) (hf : 4 < fuel) : Compresses (libEnc (([], false) : Bytes × Bool) (gzWrite (endCall .ok) fuel)
      (gzFinish (endFin (fun _ => .streamEnd)) fuel)) (fun x y => y = x ++ [255]) [1, 2] [[3], [], [4, 5]] := by
  have h1 := endCall_deflates ZCode.ok (fun _ => True) trivial
  have h2 := endFin_finishes (fun _ => ZCode.streamEnd) (fun _ => True) (fun _ => trivial) (fun _ n => n < chunkSize) chunkSize
    chunkSize_pos (fun b h => List.drop_eq_nil_of_le (by simp only [List.length_take] at h; omega))
    (fun b h hb => h (by subst hb; exact chunkSize_pos))
  exact C60_gzip (fun _ _ h => Nat.succ_le_succ h) h1 h2 endRF ([], false) ⟨rfl, rfl⟩ [1, 2] [[3], [], [4, 5]] (by decide)
    fuel hf

example (fuel : Nat) (hf : 4 < fuel) : Compresses (libEnc (([], false) : Bytes × Bool) (bzWrite (endCall .runOk) fuel)
      (bzFinish (endFin (fun b => if b = [] then .streamEnd else .finishOk)) fuel))
    (fun x y => y = x ++ [255]) [1, 2] [[3], [], [4, 5]] := by
  have h1 := endCall_deflates BzCode.runOk (fun _ => True) trivial
  have h2 := endFin_finishes (fun b => if b = [] then BzCode.streamEnd else .finishOk) (fun _ => True) (fun _ => trivial)
    (fun c _ => c = .streamEnd) chunkSize chunkSize_pos
    (fun b h => by split at h; assumption; cases h) (fun b h hb => h (by subst hb; rw [List.drop_nil, if_pos rfl]))
  exact C60_bzip2 (fun _ _ h => Nat.succ_le_succ h) h1 h2 endRF ([], false) ⟨rfl, rfl⟩ [1, 2] [[3], [], [4, 5]] (by decide)
    fuel hf

example : Compresses (libEnc ([], false) (lzmaWrite (endCall .ok) 10000)
      (lzmaFinish (endFin (fun b => if b = [] then .streamEnd else .ok)) 10000))
    (fun x y => y = x ++ [255]) [1, 2] [[3], [], [4, 5]] :=
  C60_lzma (fun _ _ h => Nat.succ_le_succ h) (endCall_deflates .ok _ rfl)
    (endFin_finishes _ _ (fun b => by split; exact Or.inr rfl; exact Or.inl rfl) _ chunkSize (by decide)
      (fun b h => by split at h; assumption; cases h)
      (fun b h hb => h (by subst hb; rw [List.drop_nil, if_pos rfl])))
    endRF ([], false) ⟨rfl, rfl⟩ [1, 2] [[3], [], [4, 5]] (by decide) 10000 (by decide)

example : Compresses (libEnc ([], false) (zstdWrite (endCall (.hint 9)) 2 10000)
      (zstdFinish (endFin (fun b => .hint b.length)) 2 10000))
    (fun x y => y = x ++ [255]) [1, 2] [[3], [], [4, 5, 6, 7, 8, 9]] :=
  C60_zstd (fun _ _ h => Nat.succ_le_succ h) 2 (by decide) (endCall_deflates (.hint 9) _ (by decide))
    (endFin_finishes _ _ (fun b => by simp) _ 2 (by decide)
      (fun b h => by
        simp only [ZstdCode.hint.injEq] at h
        exact List.length_eq_zero_iff.mp h)
      (fun b h hb => h (by subst hb; rfl)))
    endRF ([], false) ⟨rfl, rfl⟩ [1, 2] [[3], [], [4, 5, 6, 7, 8, 9]] (by decide) 10000 (by decide)

theorem storeLz_deflates : LzDeflates storeLz (fun n => n) (fun x y => y = x)
    (fun s x y f => y ++ s.1 = x ∧ s.2 = f ∧ s.1.length ≤ 4) where
  write := by
    rintro ⟨b, f⟩ x y inp ⟨hx, hf, hl⟩ hne hw
    have hpos := List.length_pos_iff.mpr hne
    simp only [storeLz] at hw hl hx ⊢
    refine ⟨_, _, rfl, by omega, by omega, ?_, hf, ?_⟩
    · rw [← hx, List.append_assoc]
      congr 2
      rw [Nat.min_comm, ← List.take_take, List.take_length]
    · simp only [List.length_append, List.length_take]; omega
  read := by
    rintro ⟨b, f⟩ x y room ⟨hx, hf, hl⟩ hr
    simp only [storeLz] at hl hx ⊢
    refine ⟨_, _, rfl, ⟨?_, hf, ?_⟩, ?_⟩
    · rw [← hx, List.append_assoc, List.take_append_drop]
    · simp only [List.length_drop]; omega
    · intro hw ho
      have := congrArg List.length ho
      simp only [List.length_take, List.length_nil] at this
      omega
  finish := by
    rintro ⟨b, f⟩ x y ⟨hx, hf, hl⟩
    exact ⟨hx, rfl, hl⟩
  rest := by
    rintro ⟨b, f⟩ x y room ⟨hx, hf, hl⟩ hr
    simp only [storeLz] at hl hf hx ⊢
    subst hf
    refine ⟨_, _, rfl, ⟨?_, rfl, ?_⟩, ?_, ?_⟩
    · rw [← hx, List.append_assoc, List.take_append_drop]
    · simp only [List.length_drop]; omega
    · intro h
      simp only [Bool.true_and, List.isEmpty_iff] at h
      have e := List.take_append_drop room b
      rw [h, List.append_nil] at e
      rw [e, hx]
    · intro h ho
      have h1 := congrArg List.length ho
      simp only [List.length_take, List.length_nil] at h1
      have : b = [] := List.length_eq_zero_iff.mp (by omega)
      subst this
      simp at h
  bound := by
    rintro ⟨b, f⟩ x y g ⟨hx, _, _⟩
    rw [← hx, List.length_append]
    omega

example : Compresses (libEnc ([], false) (lzipWrite storeLz 10000) (lzipFinish storeLz 10000))
    (fun x y => y = x) [1, 2] [[3], [], [4, 5, 6, 7, 8, 9]] :=
  C60_lzip (fun _ _ h => h) storeLz_deflates ([], false) ⟨rfl, rfl, by decide⟩ [1, 2] [[3], [], [4, 5, 6, 7, 8, 9]]
    (by decide) 10000 (by decide)

/-- lzip there and back. -/
example (bs : List Bytes) (hl : ∀ b ∈ bs, b.length < 2^32) (ht : bs.flatten.length < 2^64) :
    ∃ s res, csRun (libEnc ([], false) (lzipWrite storeLz (2 * bs.flatten.length + 1))
        (lzipFinish storeLz (2 * bs.flatten.length + 1)))
      (csInit (libEnc ([], false) (lzipWrite storeLz (2 * bs.flatten.length + 1))
        (lzipFinish storeLz (2 * bs.flatten.length + 1))) true []) (bs.map COp.write ++ [.finish]) = (s, res) ∧
      (∀ r ∈ res, r.1 = none) ∧
      ∀ pieces : List Bytes, pieces.flatten = s.file → [] ∉ pieces →
        ReadsWhole s.file bs.flatten (unlzip storeLz (2 * bs.flatten.length + 1) (decInit ([], false)) pieces) :=
  C60_roundtrip
    (C60_lzip (fun _ _ h => h) storeLz_deflates ([], false) ⟨rfl, rfl, by decide⟩ [] bs hl _ (by omega))
    (fun y hy pieces hp hne => by
      subst hy
      exact C59_lzip storeLz_inflates ([], false) bs.flatten bs.flatten ⟨rfl, rfl, by decide⟩ pieces hp hne ht _ (by omega))

/-! ## C61: levels -/

/-- C61 (proved part): for every level the libraries have (0 is the default level), every method can
    be opened; and whatever the level, opening lzip, zstd, xz or no compression is refused or gives a
    usable stream. Missing: levels 10 to 99 of the other methods, see `C61_violated`. -/
theorem C61_partial (comp : Nat) (hc : comp ≤ 6) (level : Int) :
    (0 ≤ level ∧ level ≤ 9 → compOpen comp level = .usable) ∧
    (comp ≠ Comp.gzip.code ∧ comp ≠ Comp.bzip2.code ∧ comp ≠ Comp.lzma.code → compOpen comp level ≠ .lost) := by
  constructor
  · rintro ⟨h1, h2⟩
    unfold compOpen
    have : csInitOk comp level = true := by
      unfold csInitOk
      rw [decide_eq_true_iff]
      exact ⟨by omega, hc⟩
    rw [if_neg (by rw [this]; decide), if_pos h2]
  · rintro ⟨h1, h2, h3⟩
    unfold compOpen
    split
    · intro h; cases h
    · split
      · intro h; cases h
      · rw [if_neg (by rintro (h | h | h) <;> contradiction)]
        split <;> (intro h; cases h)

/-- C61 is violated: a delta or a package can name a level from 10 to 99 of gzip, bzip2 or lzma (the
    level is in its compression code, or in the package's header); such a stream is opened, but the
    library's structure was never initialised. -/
theorem C61_violated (comp : Nat) (hc : comp = Comp.gzip.code ∨ comp = Comp.bzip2.code ∨ comp = Comp.lzma.code)
    (level : Int) (h1 : 10 ≤ level) (h2 : level ≤ 99) : compOpen comp level = .lost := by
  unfold compOpen
  have : csInitOk comp level = true := by
    unfold csInitOk
    rw [decide_eq_true_iff]
    refine ⟨by omega, ?_⟩
    rcases hc with h | h | h <;> rw [h] <;> decide
  rw [if_neg (by rw [this]; decide), if_neg (by omega), if_pos hc]

/-- So applying a delta whose payload has such a level is undefined, once the old package and the rest
    of the delta have been accepted; and so is making one from a package that has it. -/
theorem C61_violated_api {σ : Type} (aenv : ApplyEnv σ) (menv : MakeEnv) (comp level : Nat)
    (hc : comp = Comp.gzip.code ∨ comp = Comp.bzip2.code ∨ comp = Comp.lzma.code) (h1 : 10 ≤ level) (h2 : level ≤ 99) :
    (∀ file (d : Delta) ws hdr, d.tgtComp = comp → d.tgtCompLevel = level → applyHeader aenv file d = .ok hdr →
      applyWrite aenv file d ws = .ub) ∧
    ∀ s, compressDelta menv comp level s = .ub := by
  have h : strmOpen comp level = .ub := by
    unfold strmOpen
    rw [C61_violated comp hc level (by omega) (by omega)]
  constructor
  · intro file d ws hdr e1 e2 e3
    unfold applyWrite
    rw [e3, Out.bind_ok, e1, e2, h]
    rfl
  · intro s
    unfold compressDelta
    rw [h]
    rfl

/-- A method that does not exist, a level that no method has and a level that xz does not have are reported: applying such a
    delta and making one with them fail. -/
theorem C61_refused {σ : Type} (aenv : ApplyEnv σ) (menv : MakeEnv) (comp level : Nat)
    (h : 6 < comp ∨ 100 ≤ level ∨ (comp = Comp.xz.code ∧ 10 ≤ level)) :
    ∃ e, (∀ file (d : Delta) ws hdr, d.tgtComp = comp → d.tgtCompLevel = level → applyHeader aenv file d = .ok hdr →
      applyWrite aenv file d ws = .err e) ∧
    ∀ s, compressDelta menv comp level s = .err e := by
  have h : ∃ e, strmOpen comp level = .err e := by
    unfold strmOpen compOpen
    cases hi : csInitOk comp level with
    | false => exact ⟨.prog, rfl⟩
    | true =>
      unfold csInitOk at hi
      rw [decide_eq_true_iff] at hi
      have hx : comp = 4 ∧ 10 ≤ level := by
        rcases h with h | h | h
        · omega
        · omega
        · exact h
      obtain ⟨rfl, hx⟩ := hx
      rw [if_neg (by decide), if_neg (by omega), if_neg (by decide), if_pos (by decide)]
      exact ⟨_, rfl⟩
  obtain ⟨e, h⟩ := h
  refine ⟨e, ?_, ?_⟩
  · intro file d ws hdr e1 e2 e3
    unfold applyWrite
    rw [e3, Out.bind_ok, e1, e2, h]
    simp only [Out.bind_err]
  · intro s
    unfold compressDelta
    rw [h]
    simp only [Out.bind_err]

example {σ : Type} (aenv : ApplyEnv σ) (menv : MakeEnv) : ∃ e : Err, ∀ s, compressDelta menv Comp.xz.code 12 s = .err e :=
  let ⟨e, _, h⟩ := C61_refused aenv menv Comp.xz.code 12 (Or.inr (Or.inr ⟨rfl, by omega⟩))
  ⟨e, h⟩

example : compOpen Comp.xz.code 6 = .usable := (C61_partial 4 (by decide) 6).1 (by decide)
example : compOpen Comp.gzip.code 77 = .lost := C61_violated _ (Or.inl rfl) 77 (by decide) (by decide)

end Drpm
