import Verif.Requests
import Verif.CutLemmas
import Verif.AcceptLemmas
/-! Helper lemmas: what the requests for memory amount to. -/

namespace Drpm

theorem rdNevrM_same : Alike rdNevrM (rdBe32 >>= rdNevr) := by
  unfold rdNevrM
  exact Alike.bind (Alike.of _) fun n => Alike.ask (Alike.of _)

theorem rdPairsM_same (n : Nat) (c1 c2 : Nat → Nat) : Alike (rdPairsM n c1 c2) (rdPairs n c1 c2) := by
  unfold rdPairsM
  split
  · exact Alike.ask (Alike.of _)
  · exact fun s => rfl

theorem rdBufM_same : Alike rdBufM rdBuf := by
  unfold rdBufM rdBuf
  exact Alike.bind (Alike.of _) fun n => rdBlockM_same n

theorem rdV3M_same (d : Delta) : Alike (rdV3M d) (rdV3 d) := by
  unfold rdV3M rdV3
  exact Alike.ite (Alike.bind (Alike.of _) fun _ => Alike.bind (Alike.of _) fun _ =>
    Alike.bind (rdPairsM_same _ _ _) fun _ => Alike.pure _) (Alike.pure _)

theorem rdV2M_same (d : Delta) : Alike (rdV2M d) (rdV2 d) := by
  unfold rdV2M rdV2
  exact Alike.ite (Alike.bind (Alike.of _) fun _ => Alike.bind (Alike.of _) fun _ =>
    Alike.bind (Alike.of _) fun _ => Alike.bind rdBufM_same fun _ => rdV3M_same _) (Alike.pure _)

theorem rdSequenceM_same (t : DType) : Alike (rdSequenceM t) (rdSequence t) := by
  unfold rdSequenceM rdSequence
  exact Alike.bind (Alike.of _) fun n => Alike.ite (Alike.of _) (rdBlockM_same n)

theorem rdLeadsigM_same : Alike rdLeadsigM rdLeadsig := by
  unfold rdLeadsigM rdLeadsig
  exact Alike.bind (Alike.of _) fun n => Alike.ite (Alike.of _) (rdBlockM_same n)

theorem rdAddM_same (t : DType) (keep : Bytes) : Alike (rdAddM t keep) (rdAdd t keep) := by
  unfold rdAddM rdAdd
  exact Alike.bind (Alike.of _) fun n => Alike.ite (Alike.ite (Alike.of _) (rdBlockM_same n)) (Alike.pure _)

theorem P.bind_assoc {α β γ : Type} (p : P α) (f : α → P β) (g : β → P γ) (s : Bytes) :
    ((p >>= f) >>= g) s = (p >>= fun a => f a >>= g) s := by
  show ((p s >>= fun r => f r.1 r.2) >>= fun r => g r.1 r.2) = (p s >>= fun r => (f r.1 r.2 >>= fun r => g r.1 r.2))
  cases p s <;> rfl

theorem rdPart1M_same (d : Delta) : Alike (rdPart1M d) (rdPart1 d) := by
  intro s
  have h : Alike (rdPart1M d) (do
      let v ← rdVersion d.type
      let nevr ← rdBe32 >>= rdNevr
      let seq ← rdSequence d.type
      let md5 ← rdInto 16 16
      pure { d with version := v, srcNevr := nevr, sequence := seq, tgtMd5 := md5 }) := by
    unfold rdPart1M
    exact Alike.bind (Alike.of _) fun _ => Alike.bind rdNevrM_same fun _ =>
      Alike.bind (rdSequenceM_same _) fun _ => Alike.bind (Alike.of _) fun _ => Alike.pure _
  rw [h s]
  unfold rdPart1
  rw [P.bind_run, P.bind_run]
  congr 1
  funext r
  exact P.bind_assoc _ _ _ _

theorem rdPart3M_same (d : Delta) : Alike (rdPart3M d) (rdPart3 d) := by
  unfold rdPart3M rdPart3
  exact Alike.bind (Alike.of _) fun _ => Alike.bind rdLeadsigM_same fun _ => Alike.bind (Alike.of _) fun _ =>
    Alike.bind (Alike.of _) fun _ => Alike.bind (Alike.of _) fun _ => Alike.bind (rdPairsM_same _ _ _) fun _ =>
    Alike.bind (rdPairsM_same _ _ _) fun _ => Alike.pure _

theorem rdPart4M_same (d : Delta) : Alike (rdPart4M d) (rdPart4 d) := by
  unfold rdPart4M rdPart4
  exact Alike.bind (Alike.of _) fun _ => Alike.bind (rdAddM_same _ _) fun _ => Alike.bind (Alike.of _) fun _ =>
    Alike.bind (rdBlockM_same _) fun _ => Alike.pure _

theorem rdRestM_same (d : Delta) : Alike (rdRestM d) (rdRest d) := by
  unfold rdRestM rdRest
  exact Alike.bind (rdPart1M_same _) fun _ => Alike.bind (rdV2M_same _) fun _ =>
    Alike.bind (rdPart3M_same _) fun _ => Alike.bind (rdPart4M_same _) fun _ => Alike.of _

theorem rdRpmonlyHeadM_same (d : Delta) : Alike (rdRpmonlyHeadM d) (rdRpmonlyHead d) := by
  intro s
  have h : Alike (rdRpmonlyHeadM d) (do
      fileVersion
      let nevr ← fileBe32 >>= fileNevr
      let add ← fileBe32 >>= fun n => sysRead n n
      pure { d with tgtNevr := nevr, addData := add }) := by
    unfold rdRpmonlyHeadM fileNevrM fileAddM
    exact Alike.bind (Alike.of _) fun _ => Alike.bind (Alike.bind (Alike.of _) fun _ => Alike.ask (Alike.of _)) fun _ =>
      Alike.bind (Alike.bind (Alike.of _) fun _ => Alike.ask (Alike.of _)) fun _ => Alike.pure _
  rw [h s]
  unfold rdRpmonlyHead
  rw [P.bind_run, P.bind_run]
  congr 1
  funext r
  rw [P.bind_assoc, P.bind_run, P.bind_run]
  congr 1
  funext r
  rw [P.bind_run, P.bind_run]
  congr 1
  funext r
  exact P.bind_assoc _ _ _ _

theorem openRestM_same (dec : Decoder) (d : Delta) (z : Bytes) :
    (openRestM dec d z).2 = (do
      let (c, s) ← openStream dec z
      let (d, _) ← rdRest { d with comp := c.code } s
      .ok d) := by
  unfold openRestM
  cases openStream dec z with
  | ok r =>
    obtain ⟨c, s⟩ := r
    show (rdRestM _ s).2 >>= _ = (rdRest _ s >>= _)
    rw [rdRestM_same]
  | err e => rfl
  | ub => rfl
  | loop => rfl

theorem readDeltaM_same (dec : Decoder) (rpmHead : Bytes → Out (Nat × Nat)) (file : Bytes) :
    (readDeltaM dec rpmHead file).2 = readDelta dec rpmHead file := by
  unfold readDeltaM readDelta
  cases fileBe32 file with
  | ok r =>
    obtain ⟨magic, rest⟩ := r
    rw [Out.bind_ok]
    dsimp only
    split
    · have h := rdRpmonlyHeadM_same { Delta.zero with type := .rpmonly } rest
      rw [← h]
      generalize rdRpmonlyHeadM { Delta.zero with type := .rpmonly } rest = q
      obtain ⟨l, q⟩ := q
      cases q with
      | ok r => exact openRestM_same dec r.1 r.2
      | err e => rfl
      | ub => rfl
      | loop => rfl
    · split
      · cases rpmHead file with
        | ok r => exact openRestM_same dec _ _
        | err e => rfl
        | ub => rfl
        | loop => rfl
      · rfl
  | err e => rfl
  | ub => rfl
  | loop => rfl

/-! ## Requests are paid for by bytes read -/

/-- What is asked for is at most what is read, except for the last request of a reader that does not
    succeed, which is below `b`. -/
def Paid {α : Type} (b : Nat) (p : PM α) : Prop := ∀ s,
  (∀ r, (p s).2 = .ok r → (p s).1.sum + r.2.length ≤ s.length) ∧
  ((∀ r, (p s).2 ≠ .ok r) → ∃ kept last, (p s).1 = kept ++ last ∧ last.length ≤ 1 ∧
    kept.sum ≤ s.length ∧ ∀ n ∈ last, n < b)

/-- A reader never makes the input longer. -/
def Shrinks {α : Type} (p : P α) : Prop := ∀ s r, p s = .ok r → r.2.length ≤ s.length

theorem Paid.of {α : Type} {b : Nat} {p : P α} (h : Shrinks p) : Paid b (PM.of p) := by
  intro s
  refine ⟨fun r e => ?_, fun _ => ⟨[], [], rfl, by simp, by simp, by simp⟩⟩
  have := h s r e
  show List.sum [] + r.2.length ≤ _
  simpa using this

theorem Paid.pure {α : Type} {b : Nat} (a : α) : Paid b (pure a : PM α) := by
  intro s
  refine ⟨fun r e => ?_, fun h => absurd rfl (h (a, s))⟩
  cases e
  show List.sum [] + s.length ≤ _
  simp

theorem Paid.bindOf {α β : Type} {b : Nat} {p : PM α} {f : α → PM β} (h : Paid b p)
    (h2 : ∀ a, (∃ s r, (p s).2 = .ok (a, r)) → Paid b (f a)) : Paid b (p >>= f) := by
  intro s
  show (∀ r, (PM.bind p f s).2 = .ok r → (PM.bind p f s).1.sum + r.2.length ≤ s.length) ∧
    ((∀ r, (PM.bind p f s).2 ≠ .ok r) → ∃ kept last, (PM.bind p f s).1 = kept ++ last ∧ _)
  unfold PM.bind
  obtain ⟨a1, a2⟩ := h s
  cases e : (p s).2 with
  | ok r =>
    dsimp only
    have a1' := a1 r e
    obtain ⟨b1, b2⟩ := h2 r.1 ⟨s, r.2, e⟩ r.2
    refine ⟨fun q hq => ?_, fun hn => ?_⟩
    · have := b1 q hq
      rw [List.sum_append]; omega
    · obtain ⟨kept, last, k1, k2, k3, k4⟩ := b2 hn
      refine ⟨(p s).1 ++ kept, last, by rw [k1, List.append_assoc], k2, ?_, k4⟩
      rw [List.sum_append]; omega
  | err x => exact ⟨nofun, fun _ => a2 (by rw [e]; nofun)⟩
  | ub => exact ⟨nofun, fun _ => a2 (by rw [e]; nofun)⟩
  | loop => exact ⟨nofun, fun _ => a2 (by rw [e]; nofun)⟩

theorem Paid.bind {α β : Type} {b : Nat} {p : PM α} {f : α → PM β} (h : Paid b p)
    (h2 : ∀ a, Paid b (f a)) : Paid b (p >>= f) := Paid.bindOf h fun a _ => h2 a

theorem Paid.ite {α : Type} {b : Nat} {c : Prop} [Decidable c] {p p' : PM α}
    (h : Paid b p) (h' : Paid b p') : Paid b (if c then p else p') := by
  split
  · exact h
  · exact h'

/-- A request followed by a reader that reads at least as much. -/
theorem Paid.ask {β : Type} {b n : Nat} {q : P β} (hb : n < b)
    (h : ∀ s r, q s = .ok r → n + r.2.length ≤ s.length) : Paid b (PM.ask n >>= fun _ => PM.of q) := by
  intro s
  refine ⟨fun r e => ?_, fun _ => ⟨[], [n], rfl, by simp, by simp, by simpa using hb⟩⟩
  have e' : q s = .ok r := e
  have := h s r e'
  show List.sum [n] + r.2.length ≤ _
  simpa using this

/-- A length field, a request that is at most the length field and what follows. -/
theorem Paid.field {β : Type} {b : Nat} {lenP : P Nat} {g : Nat → Nat} {q : Nat → P β}
    (hlen : ∀ s r, lenP s = .ok r → r.2.length + 4 ≤ s.length) (hb : ∀ s r, lenP s = .ok r → g r.1 < b)
    (h : ∀ n s r, q n s = .ok r → g n + r.2.length ≤ s.length + 4) :
    Paid b (PM.of lenP >>= fun n => PM.ask (g n) >>= fun _ => PM.of (q n)) := by
  intro s
  show (∀ r, (PM.bind (PM.of lenP) _ s).2 = .ok r → (PM.bind (PM.of lenP) _ s).1.sum + r.2.length ≤ s.length) ∧
    ((∀ r, (PM.bind (PM.of lenP) _ s).2 ≠ .ok r) → ∃ kept last, (PM.bind (PM.of lenP) _ s).1 = kept ++ last ∧ _)
  unfold PM.bind
  cases e : lenP s with
  | ok r =>
    have e2 : (PM.of lenP s).2 = .ok r := e
    simp only [e2]
    refine ⟨fun x hx => ?_, fun _ => ⟨[], [g r.1], rfl, by simp, by simp, ?_⟩⟩
    · have hx' : q r.1 r.2 = .ok x := hx
      have h1 := h _ _ _ hx'
      have h2 := hlen _ _ e
      show List.sum ([] ++ [g r.1]) + x.2.length ≤ _
      simp only [List.nil_append, List.sum_cons, List.sum_nil]
      omega
    · simp only [List.mem_singleton, forall_eq]
      exact hb s r e
  | err x =>
    have e2 : (PM.of lenP s).2 = .err x := e
    simp only [e2]
    exact ⟨nofun, fun _ => ⟨[], [], rfl, by simp, by simp, by simp⟩⟩
  | ub =>
    have e2 : (PM.of lenP s).2 = .ub := e
    simp only [e2]
    exact ⟨nofun, fun _ => ⟨[], [], rfl, by simp, by simp, by simp⟩⟩
  | loop =>
    have e2 : (PM.of lenP s).2 = .loop := e
    simp only [e2]
    exact ⟨nofun, fun _ => ⟨[], [], rfl, by simp, by simp, by simp⟩⟩

theorem Tight.shrinks {α : Type} {p : P α} (h : Tight p) : Shrinks p := by
  intro s r e
  obtain ⟨c, e1, _⟩ := h s r.1 r.2 e
  rw [e1, List.length_append]; omega

theorem rdN_len {n : Nat} {s : Bytes} {r : Bytes × Bytes} (h : rdN n s = .ok r) :
    r.1.length = n ∧ n + r.2.length = s.length := by
  unfold rdN at h
  split at h
  · cases h
    refine ⟨by rw [List.length_take]; omega, by rw [List.length_drop]; omega⟩
  · cases h

theorem rdBe32_len {s : Bytes} {r : Nat × Bytes} (h : rdBe32 s = .ok r) :
    r.2.length + 4 = s.length ∧ r.1 < 2^32 := by
  unfold rdBe32 at h
  rw [Out.bind_eq_ok] at h
  obtain ⟨q, h1, h2⟩ := h
  have hl := rdN_len h1
  rw [(be32At_word q.1 hl.1).1, Out.bind_ok] at h2
  cases h2
  exact ⟨by have := hl.2; dsimp only; omega, (be32At_word q.1 hl.1).2⟩

theorem rdBe64_len {s : Bytes} {r : Nat × Bytes} (h : rdBe64 s = .ok r) : r.1 < 2^64 := by
  have := (rdBe64_safe s 0).2 r.1 r.2 (by rw [List.drop_zero]; exact h)
  exact this.2

theorem rdInto_len {cap n : Nat} {s : Bytes} {r : Bytes × Bytes} (h : rdInto cap n s = .ok r) :
    n + r.2.length = s.length := by
  unfold rdInto at h
  rw [P.bind_run, Out.bind_eq_ok] at h
  obtain ⟨q, h1, h2⟩ := h
  have hl := rdN_len h1
  split at h2
  · cases h2; exact hl.2
  · cases h2

theorem rdNevr_len {n : Nat} {s : Bytes} {r : Bytes × Bytes} (h : rdNevr n s = .ok r) :
    n + r.2.length = s.length := by
  unfold rdNevr at h
  rw [P.bind_run, Out.bind_eq_ok] at h
  obtain ⟨q, h1, h2⟩ := h
  have hl := rdInto_len h1
  split at h2
  · cases h2; exact hl
  · cases h2

theorem rdElems_len {cap : Nat} {conv : Nat → Nat} {n i : Nat} {s : Bytes} {r : List Nat × Bytes}
    (h : rdElems cap conv n i s = .ok r) : 4 * n + r.2.length = s.length := by
  induction n generalizing i s r with
  | zero => rw [rdElems, P.pure_run] at h; cases h; simp
  | succ n ih =>
    rw [rdElems, P.bind_run, Out.bind_eq_ok] at h
    obtain ⟨q, h1, h2⟩ := h
    have hl := (rdBe32_len h1).1
    rw [P.bind_run, Out.bind_eq_ok] at h2
    obtain ⟨q2, h2, h3⟩ := h2
    have hq : q2.2 = q.2 := by
      split at h2
      · cases h2; rfl
      · cases h2
    rw [P.bind_run, Out.bind_eq_ok] at h3
    obtain ⟨q3, h3, h4⟩ := h3
    have := ih h3
    rw [P.pure_run] at h4
    cases h4
    rw [hq] at this
    dsimp only
    omega

theorem rdPairs_len {n : Nat} {c1 c2 : Nat → Nat} {s : Bytes} {r : List (Nat × Nat) × Bytes}
    (h : rdPairs n c1 c2 s = .ok r) : n * 2 % 2^32 * 4 % 2^32 + r.2.length ≤ s.length := by
  unfold rdPairs at h
  rw [P.bind_run, Out.bind_eq_ok] at h
  obtain ⟨q, h1, h2⟩ := h
  rw [P.bind_run, Out.bind_eq_ok] at h2
  obtain ⟨q2, h2, h3⟩ := h2
  have e1 := rdElems_len h1
  have e2 := rdElems_len h2
  rw [P.pure_run] at h3
  cases h3
  unfold pairRounds at e1 e2
  dsimp only
  omega

theorem sysRead_len {cap n : Nat} {s : Bytes} {r : Bytes × Bytes} (h : sysRead cap n s = .ok r) :
    r.1.length = n ∧ n + r.2.length = s.length := by
  unfold sysRead at h
  split at h
  · cases h
  split at h
  · cases h
  · rename_i h1
    have h1 := Classical.byContradiction h1
    cases h
    refine ⟨by rw [List.length_take]; omega, by rw [List.length_drop]; omega⟩

theorem fileBe32_len {s : Bytes} {r : Nat × Bytes} (h : fileBe32 s = .ok r) :
    r.2.length + 4 = s.length ∧ r.1 < 2^32 := by
  unfold fileBe32 at h
  rw [Out.bind_eq_ok] at h
  obtain ⟨q, h1, h2⟩ := h
  have hl := sysRead_len h1
  rw [(be32At_word q.1 hl.1).1, Out.bind_ok] at h2
  cases h2
  exact ⟨by have := hl.2; dsimp only; omega, (be32At_word q.1 hl.1).2⟩

theorem fileNevr_len {n : Nat} {s : Bytes} {r : Bytes × Bytes} (h : fileNevr n s = .ok r) :
    n + r.2.length = s.length := by
  unfold fileNevr at h
  rw [P.bind_run, Out.bind_eq_ok] at h
  obtain ⟨q, h1, h2⟩ := h
  have hl := sysRead_len h1
  split at h2
  · cases h2; exact hl.2
  · cases h2

theorem paid_be32 {b : Nat} : Paid b (PM.of rdBe32) := Paid.of tight_rdBe32.shrinks

theorem paid_nevr : Paid (2^64) rdNevrM := by
  unfold rdNevrM
  refine Paid.field (fun s r h => by have := rdBe32_len h; omega) (fun s r _ => by omega) ?_
  intro n s r h
  have := rdNevr_len h
  omega

theorem paid_block {n : Nat} (h : n < 2^64) : Paid (2^64) (rdBlockM n) := by
  unfold rdBlockM
  split
  · exact Paid.ask h fun s r e => by have := rdInto_len e; omega
  · exact Paid.bind (Paid.pure ()) fun _ => Paid.of (tight_rdInto n n).shrinks

theorem paid_pairs (n : Nat) (c1 c2 : Nat → Nat) : Paid (2^64) (rdPairsM n c1 c2) := by
  unfold rdPairsM
  split
  · exact Paid.ask (by omega) fun s r e => rdPairs_len e
  · exact Paid.bind (Paid.pure ()) fun _ => Paid.of (tight_rdPairs n c1 c2).shrinks

/-- A length of four bytes and a block of that length. -/
theorem paid_be32_then {α : Type} {f : Nat → PM α} (h : ∀ n, n < 2^32 → Paid (2^64) (f n)) :
    Paid (2^64) (PM.of rdBe32 >>= f) :=
  Paid.bindOf paid_be32 fun n ⟨_, r, e⟩ => h n (rdBe32_len (r := (n, r)) e).2

theorem paid_fail {α : Type} {b : Nat} (e : Err) : Paid b (PM.of (P.fail e : P α)) :=
  Paid.of (Tight.fail e).shrinks

theorem paid_buf : Paid (2^64) rdBufM := paid_be32_then fun _ h => paid_block (by omega)

theorem paid_v3 (d : Delta) : Paid (2^64) (rdV3M d) :=
  Paid.ite (Paid.bind paid_be32 fun _ => Paid.bind paid_be32 fun _ => Paid.bind (paid_pairs _ _ _) fun _ =>
    Paid.pure _) (Paid.pure _)

theorem paid_v2 (d : Delta) : Paid (2^64) (rdV2M d) :=
  Paid.ite (Paid.bind paid_be32 fun _ => Paid.bind paid_be32 fun _ =>
    Paid.bind (Paid.of (tight_rdTgtComp _).shrinks) fun _ => Paid.bind paid_buf fun _ => paid_v3 _) (Paid.pure _)

theorem paid_sequence (t : DType) : Paid (2^64) (rdSequenceM t) :=
  paid_be32_then fun _ h => Paid.ite (paid_fail _) (paid_block (by omega))

theorem paid_leadsig : Paid (2^64) rdLeadsigM :=
  paid_be32_then fun _ h => Paid.ite (paid_fail _) (paid_block (by omega))

theorem paid_add (t : DType) (keep : Bytes) : Paid (2^64) (rdAddM t keep) :=
  paid_be32_then fun _ h => Paid.ite (Paid.ite (paid_fail _) (paid_block (by omega))) (Paid.pure _)

theorem rdLen_lt {v : Nat} {s : Bytes} {r : Nat × Bytes} (h : rdLen v s = .ok r) : r.1 < 2^64 := by
  unfold rdLen at h
  split at h
  · exact rdBe64_len h
  · have := (rdBe32_len h).2; omega

theorem paid_rest (d : Delta) : Paid (2^64) (rdRestM d) := by
  have p1 : ∀ d, Paid (2^64) (rdPart1M d) := fun d =>
    Paid.bind (Paid.of (tight_rdVersion _).shrinks) fun _ => Paid.bind paid_nevr fun _ =>
      Paid.bind (paid_sequence _) fun _ => Paid.bind (Paid.of (tight_rdInto 16 16).shrinks) fun _ => Paid.pure _
  have p3 : ∀ d, Paid (2^64) (rdPart3M d) := fun d =>
    Paid.bind (Paid.of (Tight.ite (Tight.fail _) (Tight.pure _) : Tight (rdHeaderGuard d)).shrinks) fun _ =>
      Paid.bind paid_leadsig fun _ => Paid.bind paid_be32 fun _ => Paid.bind paid_be32 fun _ =>
      Paid.bind paid_be32 fun _ => Paid.bind (paid_pairs _ _ _) fun _ => Paid.bind (paid_pairs _ _ _) fun _ =>
      Paid.pure _
  have p4 : ∀ d, Paid (2^64) (rdPart4M d) := fun d =>
    Paid.bind (Paid.of (tight_rdLen _).shrinks) fun _ => Paid.bind (paid_add _ _) fun _ =>
      Paid.bindOf (Paid.of (tight_rdLen _).shrinks) fun n ⟨s, r, e⟩ =>
        Paid.bind (paid_block (rdLen_lt (r := (n, r)) e)) fun _ => Paid.pure _
  unfold rdRestM
  exact Paid.bind (p1 d) fun _ => Paid.bind (paid_v2 _) fun _ => Paid.bind (p3 _) fun _ =>
    Paid.bind (p4 _) fun _ => Paid.of (tight_rdChecks _).shrinks

theorem paid_head (d : Delta) : Paid (2^64) (rdRpmonlyHeadM d) := by
  unfold rdRpmonlyHeadM
  refine Paid.bind (Paid.of (tight_fileBe32.bind fun _ => Tight.ite (Tight.fail _) (Tight.pure _) :
    Tight fileVersion).shrinks) fun _ => Paid.bind ?_ fun _ => Paid.bind ?_ fun _ => Paid.pure _
  · unfold fileNevrM
    refine Paid.field (fun s r h => by have := fileBe32_len h; omega) (fun s r _ => by omega) ?_
    intro n s r h
    have := fileNevr_len h
    omega
  · unfold fileAddM
    refine Paid.field (g := fun n => n) (fun s r h => by have := fileBe32_len h; omega)
      (fun s r h => by have := (fileBe32_len h).2; omega) ?_
    intro n s r h
    have := (sysRead_len h).2
    omega

theorem openRestM_requests (dec : Decoder) (d : Delta) (z : Bytes) (E : Nat)
    (hE : ∀ c, (dec c z).length ≤ E) :
    (∀ d', (openRestM dec d z).2 = .ok d' → (openRestM dec d z).1.sum ≤ z.length + E) ∧
    ((∀ d', (openRestM dec d z).2 ≠ .ok d') → ∃ kept last, (openRestM dec d z).1 = kept ++ last ∧
      last.length ≤ 1 ∧ kept.sum ≤ z.length + E ∧ ∀ n ∈ last, n < 2^64) := by
  unfold openRestM
  cases e : openStream dec z with
  | ok r =>
    obtain ⟨c, s⟩ := r
    have hs : s.length ≤ z.length + E := by
      unfold openStream at e
      split at e
      · cases e
      · rw [Out.bind_eq_ok] at e
        obtain ⟨m, _, e⟩ := e
        split at e
        · cases e; omega
        · cases e; exact Nat.le_trans (hE _) (by omega)
    obtain ⟨a1, a2⟩ := paid_rest { d with comp := c.code } s
    dsimp only
    refine ⟨fun d' h => ?_, fun h => ?_⟩
    · rw [Out.bind_eq_ok] at h
      obtain ⟨r, h1, _⟩ := h
      have := a1 r h1
      omega
    · obtain ⟨kept, last, k1, k2, k3, k4⟩ := a2 (fun r hr => h r.1 (by rw [hr]; rfl))
      exact ⟨kept, last, k1, k2, by omega, k4⟩
  | err x => exact ⟨nofun, fun _ => ⟨[], [], rfl, by simp, by simp, by simp⟩⟩
  | ub => exact ⟨nofun, fun _ => ⟨[], [], rfl, by simp, by simp, by simp⟩⟩
  | loop => exact ⟨nofun, fun _ => ⟨[], [], rfl, by simp, by simp, by simp⟩⟩

theorem readDeltaM_requests (dec : Decoder) (rpmHead : Bytes → Out (Nat × Nat)) (file : Bytes) (E : Nat)
    (hE : ∀ c k, (dec c (file.drop k)).length ≤ E) :
    (∀ d', (readDeltaM dec rpmHead file).2 = .ok d' → (readDeltaM dec rpmHead file).1.sum ≤ file.length + E) ∧
    ((∀ d', (readDeltaM dec rpmHead file).2 ≠ .ok d') → ∃ kept last,
      (readDeltaM dec rpmHead file).1 = kept ++ last ∧ last.length ≤ 1 ∧ kept.sum ≤ file.length + E ∧
      ∀ n ∈ last, n < 2^64) := by
  unfold readDeltaM
  cases e : fileBe32 file with
  | ok r =>
    obtain ⟨magic, rest⟩ := r
    dsimp only
    have hl := (fileBe32_len e).1
    obtain ⟨c0, hc0, _⟩ := tight_fileBe32 file magic rest e
    dsimp only at hl
    by_cases hm : magic = 0x6472706D
    · rw [if_pos hm]
      have hd0 : ∃ d, ({ Delta.zero with type := .rpmonly } : Delta) = d := ⟨_, rfl⟩
      obtain ⟨d0, hd0⟩ := hd0
      rw [hd0]
      obtain ⟨a1, a2⟩ := paid_head d0 rest
      have hsame := rdRpmonlyHeadM_same d0 rest
      have htight := tight_rdRpmonlyHead d0 rest
      generalize rdRpmonlyHeadM d0 rest = q at a1 a2 hsame ⊢
      obtain ⟨l, q⟩ := q
      cases q with
      | ok r =>
        dsimp only at hsame a1 ⊢
        have b := a1 r rfl
        obtain ⟨c1, hc1, _⟩ := htight r.1 r.2 hsame.symm
        have hz : r.2 = file.drop (c0.length + c1.length) := by
          rw [hc0, hc1, ← List.append_assoc, ← List.length_append, List.drop_left]
        obtain ⟨o1, o2⟩ := openRestM_requests dec r.1 r.2 E (fun c => by rw [hz]; exact hE _ _)
        refine ⟨fun d' h => ?_, fun h => ?_⟩
        · have := o1 d' h
          rw [List.sum_append]; omega
        · obtain ⟨kept, last, k1, k2, k3, k4⟩ := o2 h
          exact ⟨l ++ kept, last, by rw [k1, List.append_assoc], k2, by rw [List.sum_append]; omega, k4⟩
      | err x =>
        obtain ⟨kept, last, k1, k2, k3, k4⟩ := a2 nofun
        exact ⟨nofun, fun _ => ⟨kept, last, k1, k2, by omega, k4⟩⟩
      | ub =>
        obtain ⟨kept, last, k1, k2, k3, k4⟩ := a2 nofun
        exact ⟨nofun, fun _ => ⟨kept, last, k1, k2, by omega, k4⟩⟩
      | loop =>
        obtain ⟨kept, last, k1, k2, k3, k4⟩ := a2 nofun
        exact ⟨nofun, fun _ => ⟨kept, last, k1, k2, by omega, k4⟩⟩
    · rw [if_neg hm]
      split
      · cases rpmHead file with
        | ok r =>
          obtain ⟨size, comp⟩ := r
          dsimp only
          obtain ⟨d1, hd1⟩ : ∃ d, ({ Delta.zero with type := .standard, tgtComp := comp } : Delta) = d := ⟨_, rfl⟩
          rw [hd1]
          obtain ⟨o1, o2⟩ := openRestM_requests dec d1 (file.drop size) E (fun c => hE c size)
          have hd : (file.drop size).length ≤ file.length := by rw [List.length_drop]; omega
          refine ⟨fun d' h => by have := o1 d' h; omega, fun h => ?_⟩
          obtain ⟨kept, last, k1, k2, k3, k4⟩ := o2 h
          exact ⟨kept, last, k1, k2, by omega, k4⟩
        | err x => exact ⟨nofun, fun _ => ⟨[], [], rfl, by simp, by simp, by simp⟩⟩
        | ub => exact ⟨nofun, fun _ => ⟨[], [], rfl, by simp, by simp, by simp⟩⟩
        | loop => exact ⟨nofun, fun _ => ⟨[], [], rfl, by simp, by simp, by simp⟩⟩
      · exact ⟨nofun, fun _ => ⟨[], [], rfl, by simp, by simp, by simp⟩⟩
  | err x => exact ⟨nofun, fun _ => ⟨[], [], rfl, by simp, by simp, by simp⟩⟩
  | ub => exact ⟨nofun, fun _ => ⟨[], [], rfl, by simp, by simp, by simp⟩⟩
  | loop => exact ⟨nofun, fun _ => ⟨[], [], rfl, by simp, by simp, by simp⟩⟩

end Drpm
