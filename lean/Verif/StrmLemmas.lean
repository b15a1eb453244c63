import Verif.Strm
/-!
# Lemmas about the streams
-/

namespace Drpm

/-! ## Specification of a decompression stream -/

/-- The bytes a stream of chunks delivers before its first error. -/
def available : Events → Bytes
  | [] => []
  | (b, none) :: ev => b ++ available ev
  | (_, some _) :: _ => []

/-- The error that ends a stream of chunks: `DRPM_ERR_FORMAT` at the end of the input. -/
def endErr : Events → Err
  | [] => .format
  | (_, none) :: ev => endErr ev
  | (_, some e) :: _ => e

/-- No chunk fails. -/
def Clean (ev : Events) : Prop := ∀ x ∈ ev, x.2 = none

/-! ## Compression streams -/

/-- The only encoder without a finish function (the uncompressed one) never fails. -/
def Enc.Ok {σ : Type} (E : Enc σ) : Prop :=
  E.finish = none → ∀ st b, (E.write st b).2.2 = none

theorem plainEnc_ok : plainEnc.Ok := fun _ _ _ => rfl

/-- What holds after every history of calls. -/
structure CInv {σ : Type} (E : Enc σ) (f0 : Bytes) (s : CStrm σ) : Prop where
  fd : s.fd = true
  pos : s.pos ≤ s.data.length
  file : s.finished = false → s.file = f0 ++ s.data.take s.pos
  done : s.finished = true → s.file = f0 ++ s.data
  all : s.finished = false → E.finish = none → s.pos = s.data.length

theorem CInv.init {σ : Type} (E : Enc σ) (f0 : Bytes) : CInv E f0 (csInit E true f0) :=
  ⟨rfl, Nat.le_refl _, fun _ => by simp [csInit], fun h => by simp [csInit] at h,
   fun _ _ => rfl⟩

theorem CInv.write {σ : Type} {E : Enc σ} (hE : E.Ok) {f0 : Bytes} {s : CStrm σ}
    (h : CInv E f0 s) (b : Bytes) : CInv E f0 (csWrite E s b).2 := by
  unfold csWrite
  split
  · exact h
  rename_i hf
  have hf : s.finished = false := by simpa using hf
  split
  · exact h
  split
  · rename_i o st e he
    refine ⟨h.fd, by simp; have := h.pos; omega, fun _ => ?_, fun h' => by simp [hf] at h', ?_⟩
    · simp only [List.take_append_of_le_length h.pos]; exact h.file hf
    · intro _ hn
      have := hE hn s.st b
      rw [he] at this
      cases this
  · rename_i o st he
    refine ⟨h.fd, Nat.le_refl _, fun _ => ?_, fun h' => by simp [hf] at h', fun _ _ => rfl⟩
    simp only [h.fd, if_true, List.take_length]
    rw [h.file hf, List.append_assoc, ← List.take_append_of_le_length (l₂ := o) h.pos,
      List.take_append_drop]

theorem CInv.finish {σ : Type} {E : Enc σ} {f0 : Bytes} {s : CStrm σ}
    (h : CInv E f0 s) : CInv E f0 (csFinish E s).2 ∧
      ∀ d, (csFinish E s).1 = .ok d → (csFinish E s).2.finished = true ∧ (csFinish E s).2.data = d := by
  unfold csFinish
  split
  · exact ⟨h, fun d hd => by cases hd⟩
  rename_i hf
  have hf : s.finished = false := by simpa using hf
  split
  · rename_i hn
    refine ⟨⟨h.fd, h.pos, fun h' => by simp at h', fun _ => ?_, fun h' => by simp at h'⟩, ?_⟩
    · have := h.file hf
      rw [h.all hf hn, List.take_length] at this
      exact this
    · intro d hd
      simp only [Except.ok.injEq] at hd
      exact ⟨rfl, hd⟩
  · rename_i f hn
    split
    · rename_i o e he
      refine ⟨⟨h.fd, by simp; have := h.pos; omega, fun _ => ?_, fun h' => by simp [hf] at h', ?_⟩, ?_⟩
      · simp only [List.take_append_of_le_length h.pos]; exact h.file hf
      · intro _ h'; rw [hn] at h'; cases h'
      · intro d hd; cases hd
    · rename_i o he
      refine ⟨⟨h.fd, by simp; have := h.pos; omega, fun h' => by simp at h', fun _ => ?_,
        fun h' => by simp at h'⟩, ?_⟩
      · simp only [h.fd, if_true]
        rw [h.file hf, List.append_assoc, ← List.take_append_of_le_length (l₂ := o) h.pos,
          List.take_append_drop]
      · intro d hd
        simp only [Except.ok.injEq] at hd
        exact ⟨rfl, hd⟩

theorem csOp_inv {σ : Type} {E : Enc σ} (hE : E.Ok) {f0 : Bytes} {s : CStrm σ}
    (h : CInv E f0 s) (op : COp) : CInv E f0 (csOp E s op).2.2 ∧
      ∀ d, (csOp E s op).2.1 = some d → (csOp E s op).2.2.finished = true ∧ (csOp E s op).2.2.data = d := by
  cases op with
  | write b => exact ⟨h.write hE b, fun d hd => by simp [csOp] at hd⟩
  | finish =>
    obtain ⟨h1, h2⟩ := h.finish
    unfold csOp
    simp only
    split
    · rename_i d s' he
      rw [he] at h1 h2
      exact ⟨h1, fun d' hd => by simp only [Option.some.injEq] at hd; subst hd; exact h2 _ rfl⟩
    · rename_i e s' he
      rw [he] at h1
      exact ⟨h1, fun d hd => by cases hd⟩

theorem csOp_finished {σ : Type} (E : Enc σ) (s : CStrm σ) (hf : s.finished = true) (op : COp) :
    csOp E s op = (some .prog, none, s) := by
  cases op <;> simp [csOp, csWrite, csFinish, hf]

theorem csRun_finished {σ : Type} (E : Enc σ) (s : CStrm σ) (hf : s.finished = true) (ops : List COp) :
    csRun E s ops = (s, ops.map (fun _ => (some .prog, none))) := by
  induction ops with
  | nil => rfl
  | cons op ops ih => simp [csRun, csOp_finished E s hf, ih]

theorem csRun_result {σ : Type} {E : Enc σ} (hE : E.Ok) {f0 : Bytes} (ops : List COp) :
    ∀ s, CInv E f0 s → ∀ e d, (e, some d) ∈ (csRun E s ops).2 → (csRun E s ops).1.file = f0 ++ d := by
  induction ops with
  | nil => intro s _ e d h; simp [csRun] at h
  | cons op ops ih =>
    intro s hs e d h
    obtain ⟨h1, h2⟩ := csOp_inv hE hs op
    simp only [csRun, List.mem_cons, Prod.mk.injEq] at h ⊢
    rcases h with h | h
    · obtain ⟨hf, hd⟩ := h2 d h.2.symm
      rw [csRun_finished E _ hf]
      simp only
      rw [h1.done hf, hd]
    · exact ih _ h1 e d h

/-! ## The wrapper -/

/-- Bytes the encoder emits for a list of pieces, and the state it is left in. -/
def emit {σ : Type} (E : Enc σ) : σ → List Bytes → Option (Bytes × σ)
  | st, [] => some ([], st)
  | st, b :: bs =>
    match E.write st b with
    | (o, st, none) => (emit E st bs).map (fun r => (o ++ r.1, r.2))
    | (_, _, some _) => none

theorem emit_append {σ : Type} (E : Enc σ) (as bs : List Bytes) : ∀ st,
    emit E st (as ++ bs) =
      (emit E st as).bind (fun r => (emit E r.2 bs).map (fun q => (r.1 ++ q.1, q.2))) := by
  induction as with
  | nil => intro st; simp [emit]
  | cons a as ih =>
    intro st
    simp only [List.cons_append, emit]
    split
    · rename_i o st' _
      rw [ih]
      cases emit E st' as with
      | none => simp
      | some r => cases hq : emit E r.2 bs <;> simp [hq]
    · rfl

theorem encodeAll_emit {σ : Type} (E : Enc σ) (bs : List Bytes) : ∀ st,
    encodeAll E st bs = (emit E st bs).bind (fun r => (encodeAll E r.2 []).map (r.1 ++ ·)) := by
  induction bs with
  | nil => intro st; simp [emit]
  | cons b bs ih =>
    intro st
    rw [encodeAll, emit]
    rcases E.write st b with ⟨o, st', e⟩
    cases e with
    | none =>
      simp only
      rw [ih]
      cases emit E st' bs with
      | none => simp
      | some r => cases hq : encodeAll E r.2 [] <;> simp [hq]
    | some e => rfl

/-- What holds while writing through the wrapper: `bs` the pieces written so far, `ps` the non-empty
    pieces that reached the encoder. -/
structure WInv {σ : Type} (E : Enc σ) (ulen : Nat) (f0 flat : Bytes) (ps : List Bytes) (w : Wrap σ) :
    Prop where
  hulen : w.ulen = ulen
  udata : w.udata = flat.take ulen
  rest : ps.flatten = flat.drop ulen
  ne : [] ∉ ps
  hemit : Drpm.emit E E.init ps = some (w.strm.data, w.strm.st)
  pos : w.strm.pos = w.strm.data.length
  fd : w.strm.fd = true
  file : w.strm.file = f0 ++ flat.take ulen ++ w.strm.data
  open_ : w.strm.finished = false

theorem WInv.init {σ : Type} (E : Enc σ) (ulen : Nat) (f0 : Bytes) :
    WInv E ulen f0 [] [] (wrInit E ulen f0) :=
  ⟨rfl, by simp [wrInit], by simp, by simp, rfl, rfl, rfl, by simp [wrInit, csInit], rfl⟩

/-- A write that goes to the encoder. -/
theorem csWrite_ok {σ : Type} {E : Enc σ} {s s' : CStrm σ} {b : Bytes} {f : Bytes}
    {ps : List Bytes} (hf : s.finished = false) (hemit : emit E E.init ps = some (s.data, s.st))
    (hpos : s.pos = s.data.length) (hfd : s.fd = true) (hfile : s.file = f ++ s.data)
    (h : csWrite E s b = (none, s')) :
    ∃ ps', ps'.flatten = ps.flatten ++ b ∧ ([] ∉ ps → [] ∉ ps') ∧
      emit E E.init ps' = some (s'.data, s'.st) ∧ s'.pos = s'.data.length ∧ s'.fd = true ∧
      s'.file = f ++ s'.data ∧ s'.finished = false := by
  unfold csWrite at h
  simp only [hf] at h
  split at h
  · rename_i h'; cases h'
  split at h
  · rename_i hb
    obtain rfl : b = [] := List.length_eq_zero_iff.mp hb
    simp only [Prod.mk.injEq, true_and] at h
    subst h
    exact ⟨ps, by simp, id, hemit, hpos, hfd, hfile, hf⟩
  · rename_i hb
    split at h
    · cases h
    · rename_i o st he
      simp only [Prod.mk.injEq, true_and] at h
      subst h
      refine ⟨ps ++ [b], by simp, ?_, ?_, rfl, hfd, ?_, rfl⟩
      · intro h1 h2
        simp only [List.mem_append, List.mem_singleton] at h2
        rcases h2 with h2 | h2
        · exact h1 h2
        · subst h2; simp at hb
      · rw [emit_append, hemit]
        simp [emit, he]
      · simp only [hpos]
        rw [hfile]
        simp

theorem WInv.write {σ : Type} {E : Enc σ} {ulen : Nat} {f0 flat : Bytes} {ps : List Bytes}
    {w w' : Wrap σ} {b : Bytes} (h : WInv E ulen f0 flat ps w) (hw : wrWrite E w b = (none, w')) :
    ∃ ps', WInv E ulen f0 (flat ++ b) ps' w' := by
  obtain ⟨hu, hd, hr, hne, he, hp, hfd, hfile, ho⟩ := h
  have hdl : w.udata.length = min ulen flat.length := by rw [hd, List.length_take]
  unfold wrWrite at hw
  split at hw
  · rename_i hlt
    have hfl : flat.length < ulen := by omega
    split at hw
    · rename_i hb
      obtain rfl : b = [] := List.length_eq_zero_iff.mp hb
      simp only [Prod.mk.injEq, true_and] at hw
      subst hw
      exact ⟨ps, ⟨hu, by simpa using hd, by simpa using hr, hne, he, hp, hfd, by simpa using hfile, ho⟩⟩
    · simp only [Prod.mk.injEq] at hw
      obtain ⟨h1, h2⟩ := hw
      rw [hu, hdl, show min ulen flat.length = flat.length by omega] at h1 h2
      have hps : ps = [] := by
        have h3 : flat.drop ulen = [] := by rw [List.drop_eq_nil_iff]; omega
        rw [h3, List.flatten_eq_nil_iff] at hr
        cases ps with
        | nil => rfl
        | cons p ps => exact absurd (by rw [hr p (by simp)]; simp) hne
      subst hps
      simp only [Drpm.emit, Option.some.injEq, Prod.mk.injEq] at he
      have htk : (flat ++ b).take ulen = flat ++ b.take (min (ulen - flat.length) b.length) := by
        rw [List.take_append, List.take_of_length_le (by omega), ← List.take_eq_take_min]
      have hdr : (flat ++ b).drop ulen = b.drop (min (ulen - flat.length) b.length) := by
        rw [List.drop_append, show flat.drop ulen = [] by rw [List.drop_eq_nil_iff]; omega,
          List.nil_append]
        rcases Nat.le_total (ulen - flat.length) b.length with hle | hle
        · rw [Nat.min_eq_left hle]
        · rw [Nat.min_eq_right hle, List.drop_length, List.drop_eq_nil_of_le hle]
      obtain ⟨ps', a1, a2, a3, a4, a5, a6, a7⟩ := csWrite_ok (E := E) (ps := []) (b := b.drop (min (ulen - flat.length) b.length))
        (s := { w.strm with file := w.strm.file ++ b.take (min (ulen - flat.length) b.length) })
        (s' := _) (f := f0 ++ (flat ++ b).take ulen) ho (by simp [emit, he.1, he.2]) hp hfd
        (by
          simp only
          rw [hfile, htk, ← he.1, List.take_of_length_le (Nat.le_of_lt hfl)]
          simp) (Prod.ext h1 rfl)
      subst h2
      refine ⟨ps', ⟨rfl, ?_, ?_, a2 (by simp), a3, a4, a5, a6, a7⟩⟩
      · simp only
        rw [hd, htk, List.take_of_length_le (Nat.le_of_lt hfl)]
      · rw [a1, hdr]; simp
  · rename_i hge
    have hfl : ulen ≤ flat.length := by omega
    simp only [Prod.mk.injEq] at hw
    obtain ⟨h1, h2⟩ := hw
    obtain ⟨ps', a1, a2, a3, a4, a5, a6, a7⟩ := csWrite_ok (E := E) (ps := ps) (b := b)
      (s := w.strm) (s' := _) (f := f0 ++ flat.take ulen) ho he hp hfd hfile (Prod.ext h1 rfl)
    subst h2
    refine ⟨ps', ⟨hu, ?_, ?_, a2 hne, a3, a4, a5, ?_, a7⟩⟩
    · rw [List.take_append_of_le_length hfl]; exact hd
    · rw [a1, hr, List.drop_append_of_le_length hfl]
    · rw [List.take_append_of_le_length hfl]; exact a6

theorem WInv.writes {σ : Type} {E : Enc σ} {ulen : Nat} {f0 : Bytes} (bs : List Bytes) :
    ∀ {flat : Bytes} {ps : List Bytes} {w w' : Wrap σ}, WInv E ulen f0 flat ps w →
      wrWrites E w bs = .ok w' → ∃ ps', WInv E ulen f0 (flat ++ bs.flatten) ps' w' := by
  induction bs with
  | nil =>
    intro flat ps w w' h hw
    simp only [wrWrites, Out.ok.injEq] at hw
    subst hw
    exact ⟨ps, by simpa using h⟩
  | cons b bs ih =>
    intro flat ps w w' h hw
    rw [wrWrites] at hw
    split at hw
    · cases hw
    · rename_i w1 h1
      obtain ⟨ps1, h2⟩ := h.write h1
      obtain ⟨ps', h3⟩ := ih h2 hw
      exact ⟨ps', by simpa using h3⟩

/-! ## Decompression streams -/

theorem available_length_fill (ev : Events) : ∀ (s : DStrm), s.input = ev → s.pos ≤ s.data.length →
    ∀ n, s.pos + n < 2^64 → ∀ fuel, ev.length < fuel →
    (s.pos + n ≤ s.data.length + (available ev).length →
      ∃ s' x, dsFill n fuel s = .ok (none, s') ∧ s'.pos = s.pos ∧ s'.data = s.data ++ x ∧
        x ++ available s'.input = available ev ∧ s.pos + n ≤ s'.data.length ∧
        endErr s'.input = endErr ev ∧ (Clean ev → Clean s'.input)) ∧
    (s.data.length + (available ev).length < s.pos + n →
      ∃ s', dsFill n fuel s = .ok (some (endErr ev), s') ∧ s'.pos = s.pos ∧
        (∃ x, s'.data = s.data ++ available ev ++ x) ∧
        (Clean ev → s'.data = s.data ++ available ev ∧ s'.input = [])) := by
  induction ev with
  | nil =>
    intro s hin hp n hn fuel hfu
    obtain ⟨fuel, rfl⟩ : ∃ k, fuel = k + 1 := ⟨fuel - 1, by simp at hfu; omega⟩
    constructor
    · intro hle
      simp only [available, List.length_nil, Nat.add_zero] at hle
      refine ⟨s, [], ?_, rfl, by simp, by simp [hin, available], hle, by rw [hin], fun h => by rw [hin]; exact h⟩
      rw [dsFill, Nat.mod_eq_of_lt hn, if_neg (by omega)]
    · intro hlt
      simp only [available, List.length_nil, Nat.add_zero] at hlt
      refine ⟨s, ?_, rfl, ⟨[], by simp [available]⟩, fun _ => ⟨by simp [available], hin⟩⟩
      rw [dsFill, Nat.mod_eq_of_lt hn, if_pos (by omega)]
      simp [dsChunk, hin, endErr]
  | cons x ev ih =>
    intro s hin hp n hn fuel hfu
    obtain ⟨fuel, rfl⟩ : ∃ k, fuel = k + 1 := ⟨fuel - 1, by simp at hfu; omega⟩
    obtain ⟨b, e⟩ := x
    by_cases hfit : s.pos + n ≤ s.data.length
    · constructor
      · intro hle
        refine ⟨s, [], ?_, rfl, by simp, by simp [hin], hfit, by rw [hin], fun h => by rw [hin]; exact h⟩
        rw [dsFill, Nat.mod_eq_of_lt hn, if_neg (by omega)]
      · intro hlt; omega
    · rw [dsFill, Nat.mod_eq_of_lt hn, if_pos (by omega)]
      have hc : dsChunk s = (e, { s with data := s.data ++ b, input := ev }) := by
        simp [dsChunk, hin]
      rw [hc]
      cases e with
      | some e =>
        constructor
        · intro hle; simp [available] at hle; omega
        · intro hlt
          refine ⟨_, rfl, rfl, ⟨b, by simp [available]⟩, ?_⟩
          intro h
          have := h (b, some e) (by simp)
          cases this
      | none =>
        have hfu' : ev.length < fuel := by simp at hfu; omega
        have := ih { s with data := s.data ++ b, input := ev } rfl (by simp; omega) n hn fuel hfu'
        simp only [List.length_append] at this
        obtain ⟨h1, h2⟩ := this
        simp only [available, List.length_append, endErr]
        constructor
        · intro hle
          obtain ⟨s', y, a1, a2, a3, a4, a5, a6, a7⟩ := h1 (by omega)
          refine ⟨s', b ++ y, a1, a2, by rw [a3, List.append_assoc], by rw [List.append_assoc, a4], a5, a6, ?_⟩
          intro h
          exact a7 (fun z hz => h z (by simp [hz]))
        · intro hlt
          obtain ⟨s', a1, a2, ⟨y, a3⟩, a4⟩ := h2 (by omega)
          refine ⟨s', a1, a2, ⟨y, by rw [a3]; simp⟩, ?_⟩
          intro h
          obtain ⟨a5, a6⟩ := a4 (fun z hz => h z (by simp [hz]))
          exact ⟨by rw [a5]; simp, a6⟩

/-- What is still to be read from a stream. -/
def DStrm.rest (s : DStrm) : Bytes := s.data.drop s.pos ++ available s.input

theorem sumOverflows64_false {x y : Nat} (h : x + y < 2^64) : sumOverflows64 x y = false := by
  simp [sumOverflows64, Nat.mod_eq_of_lt h]

/-- One read, while enough data is there. -/
theorem dsRead_ok {s : DStrm} {n : Nat} (hp : s.pos ≤ s.data.length) (hov : s.data.length + n < 2^64)
    (hn : n ≤ s.rest.length) :
    ∃ s', dsRead s n = .ok (.ok (s.rest.take n), s') ∧ s'.rest = s.rest.drop n ∧
      s'.pos ≤ s'.data.length ∧ s'.data.length + (available s'.input).length =
        s.data.length + (available s.input).length ∧ endErr s'.input = endErr s.input ∧
      (Clean s.input → Clean s'.input) := by
  have hrl : s.rest.length = s.data.length - s.pos + (available s.input).length := by
    simp [DStrm.rest]
  obtain ⟨s', x, a1, a2, a3, a4, a5, a6, a7⟩ :=
    (available_length_fill s.input s rfl hp n (by omega) (s.input.length + 1) (by omega)).1 (by omega)
  have hrest : s'.data.drop s'.pos ++ available s'.input = s.rest := by
    rw [a3, a2, List.drop_append_of_le_length hp, List.append_assoc, a4]; rfl
  have hlen : n ≤ (s'.data.drop s'.pos).length := by rw [List.length_drop, a2]; omega
  refine ⟨{ s' with pos := s.pos + n }, ?_, ?_, ?_, ?_, a6, a7⟩
  · unfold dsRead
    rw [sumOverflows64_false hov]
    simp only [Bool.false_eq_true, if_false]
    rw [a1, Out.bind_ok]
    simp only
    rw [rdBlk_ok (by rw [a2]; exact a5), Out.bind_ok, a2]
    rw [Nat.mod_eq_of_lt (by omega), ← hrest, List.take_append_of_le_length hlen, a2]
    rfl
  · rw [← hrest, DStrm.rest, List.drop_append_of_le_length hlen, List.drop_drop, a2]
  · simpa using a5
  · simp only
    rw [a3, List.length_append, ← a4, List.length_append]
    omega

/-- One read beyond the data: it fails and moves nothing. -/
theorem dsRead_fail {s : DStrm} {n : Nat} (hp : s.pos ≤ s.data.length) (hov : s.data.length + n < 2^64)
    (hn : s.rest.length < n) :
    ∃ s', dsRead s n = .ok (.error (endErr s.input), s') ∧ s'.pos = s.pos ∧
      s.rest <+: s'.data.drop s'.pos ∧ s'.pos ≤ s'.data.length ∧
      (Clean s.input → s'.rest = s.rest ∧ s'.input = [] ∧
        s'.data.length = s.data.length + (available s.input).length) := by
  have hrl : s.rest.length = s.data.length - s.pos + (available s.input).length := by
    simp [DStrm.rest]
  obtain ⟨s', a1, a2, ⟨x, a3⟩, a4⟩ :=
    (available_length_fill s.input s rfl hp n (by omega) (s.input.length + 1) (by omega)).2 (by omega)
  refine ⟨s', ?_, a2, ?_, ?_, ?_⟩
  · unfold dsRead
    rw [sumOverflows64_false hov]
    simp only [Bool.false_eq_true, if_false]
    rw [a1]; rfl
  · rw [a3, a2, List.append_assoc, List.drop_append_of_le_length hp, DStrm.rest]
    exact ⟨x, by simp⟩
  · rw [a3, a2]; simp; omega
  · intro h
    obtain ⟨h1, h2⟩ := a4 h
    refine ⟨?_, h2, ?_⟩
    · rw [DStrm.rest, h1, h2, a2, List.drop_append_of_le_length hp]
      simp [available, DStrm.rest]
    · rw [h1, List.length_append]

theorem dsDrain_spec (ev : Events) : ∀ (s : DStrm), s.input = ev → ∀ fuel, ev.length < fuel →
    (∃ s', dsDrain fuel s = .ok (none, s') ∧ s'.pos = s.pos ∧ s.data <+: s'.data ∧
      (Clean ev → s'.data = s.data ++ available ev)) ∨
    (∃ e s', dsDrain fuel s = .ok (some e, s') ∧ e ≠ .format ∧ ¬ Clean ev) := by
  induction ev with
  | nil =>
    intro s hin fuel hfu
    obtain ⟨fuel, rfl⟩ : ∃ k, fuel = k + 1 := ⟨fuel - 1, by simp at hfu; omega⟩
    left
    refine ⟨s, by simp [dsDrain, dsChunk, hin], rfl, List.prefix_rfl, fun _ => by simp [available]⟩
  | cons x ev ih =>
    intro s hin fuel hfu
    obtain ⟨fuel, rfl⟩ : ∃ k, fuel = k + 1 := ⟨fuel - 1, by simp at hfu; omega⟩
    obtain ⟨b, e⟩ := x
    have hc : dsChunk s = (e, { s with data := s.data ++ b, input := ev }) := by
      simp [dsChunk, hin]
    rw [dsDrain, hc]
    cases e with
    | none =>
      have hfu' : ev.length < fuel := by simp at hfu; omega
      rcases ih { s with data := s.data ++ b, input := ev } rfl fuel hfu' with
        ⟨s', a1, a2, a3, a4⟩ | ⟨e, s', a1, a2, a3⟩
      · left
        refine ⟨s', a1, a2, (List.prefix_append _ _).trans a3, ?_⟩
        intro h
        rw [a4 (fun z hz => h z (by simp [hz]))]
        simp [available]
      · right
        exact ⟨e, s', a1, a2, fun h => a3 (fun z hz => h z (by simp [hz]))⟩
    | some e =>
      by_cases he : e = .format
      · subst he
        left
        refine ⟨_, rfl, rfl, List.prefix_append _ _, ?_⟩
        intro h
        have := h (b, some .format) (by simp)
        cases this
      · right
        refine ⟨e, { s with data := s.data ++ b, input := ev }, ?_, he, ?_⟩
        · cases e <;> first | rfl | exact absurd rfl he
        · intro h
          have := h (b, some e) (by simp)
          cases this

theorem memPieces_flatten : ∀ (fuel : Nat) (b : Bytes), b.length ≤ fuel →
    (memPieces fuel b).flatten = b := by
  intro fuel
  induction fuel with
  | zero => intro b h; have : b = [] := List.length_eq_zero_iff.mp (by omega); subst this; rfl
  | succ fuel ih =>
    intro b h
    rw [memPieces]
    split
    · rename_i h0; rw [List.length_eq_zero_iff.mp h0]; rfl
    · rename_i h0
      rw [List.flatten_cons, ih _ (by simp; omega), List.take_append_drop]

theorem available_plain (ps : List Bytes) : available (plainEvents ps) = ps.flatten := by
  induction ps with
  | nil => rfl
  | cons p ps ih => simp only [plainEvents, List.map_cons, available, List.flatten_cons] at ih ⊢; rw [ih]

theorem clean_plain (ps : List Bytes) : Clean (plainEvents ps) := by
  intro x hx
  simp only [plainEvents, List.mem_map] at hx
  obtain ⟨_, _, rfl⟩ := hx
  rfl

end Drpm
