import Verif.ShortReads
import Verif.Props.Cut
import Verif.Props.Moving
/-!
# C104: short and failing reads of a delta
-/

namespace Drpm

/-! ### The readers of the head -/

/-- The reader `p` fails, or does what `q` does. -/
def Unless {α : Type} (p : PR α) (q : P α) : Prop :=
  ∀ i s, (∃ e, p (i, s) = .err e) ∨ ∃ j, p (i, s) = (q s >>= fun x => .ok (x.1, (j, x.2)))

/-- With `k` whole reads, `p` does what `q` does. -/
def Steps (whole : Nat → Prop) (k : Nat) {α : Type} (p : PR α) (q : P α) : Prop :=
  ∀ i s, (∀ j, i ≤ j → j < i + k → whole j) → p (i, s) = (q s >>= fun x => .ok (x.1, (i + k, x.2)))

theorem Unless.bind {α β : Type} {p : PR α} {q : P α} {f : α → PR β} {g : α → P β}
    (h : Unless p q) (h2 : ∀ a, Unless (f a) (g a)) : Unless (p >>= f) (q >>= g) := by
  intro i s
  rw [PR.bind_run, P.bind_run]
  rcases h i s with ⟨e, k⟩ | ⟨j, k⟩
  · exact Or.inl ⟨e, by rw [k, Out.bind_err]⟩
  · rw [k]
    cases hq : q s with
    | ok x =>
      rw [Out.bind_ok, Out.bind_ok, Out.bind_ok]
      exact h2 x.1 j x.2
    | err e => exact Or.inl ⟨e, rfl⟩
    | ub => exact Or.inr ⟨0, rfl⟩
    | loop => exact Or.inr ⟨0, rfl⟩

theorem Unless.pure {α : Type} (a : α) : Unless (Pure.pure a) (Pure.pure a) := fun i _ => Or.inr ⟨i, rfl⟩
theorem Unless.fail {α : Type} (e : Err) : Unless (PR.fail e : PR α) (P.fail e) := fun _ _ => Or.inl ⟨e, rfl⟩
theorem Unless.ub {α : Type} : Unless (PR.ub : PR α) P.ub := fun _ _ => Or.inr ⟨0, rfl⟩
theorem Unless.ite {α : Type} {c : Prop} [Decidable c] {p p' : PR α} {q q' : P α}
    (h : Unless p q) (h' : Unless p' q') : Unless (if c then p else p') (if c then q else q') := by
  split
  · exact h
  · exact h'

theorem Steps.bind {w : Nat → Prop} {α β : Type} {k l : Nat} {p : PR α} {q : P α} {f : α → PR β} {g : α → P β}
    (h : Steps w k p q) (h2 : ∀ a, Steps w l (f a) (g a)) : Steps w (k + l) (p >>= f) (q >>= g) := by
  intro i s hw
  rw [PR.bind_run, P.bind_run, h i s (fun j h1 h2 => hw j h1 (by omega))]
  cases hq : q s with
  | ok x =>
    rw [Out.bind_ok, Out.bind_ok, Out.bind_ok]
    have := h2 x.1 (i + k) x.2 (fun j h1 h2 => hw j (by omega) (by omega))
    rw [Nat.add_assoc] at this
    exact this
  | err e => rfl
  | ub => rfl
  | loop => rfl

theorem Steps.pure {w : Nat → Prop} {α : Type} (a : α) : Steps w 0 (Pure.pure a) (Pure.pure a) := fun _ _ _ => rfl
theorem Steps.fail {w : Nat → Prop} {α : Type} (k : Nat) (e : Err) : Steps w k (PR.fail e : PR α) (P.fail e) := fun _ _ _ => rfl
theorem Steps.ub {w : Nat → Prop} {α : Type} (k : Nat) : Steps w k (PR.ub : PR α) P.ub := fun _ _ _ => rfl
theorem Steps.ite {w : Nat → Prop} {α : Type} {k : Nat} {c : Prop} [Decidable c] {p p' : PR α} {q q' : P α}
    (h : Steps w k p q) (h' : Steps w k p' q') : Steps w k (if c then p else p') (if c then q else q') := by
  split
  · exact h
  · exact h'

theorem sysReadOn_unless (sched : Nat → ReadRes) (cap n : Nat) : Unless (sysReadOn sched cap n) (sysRead cap n) := by
  intro i s
  unfold sysReadOn readOnce
  simp only
  cases sched i with
  | fails => exact Or.inl ⟨_, rfl⟩
  | upTo k =>
    simp only [List.length_take]
    unfold sysRead
    split
    · rename_i h
      rw [if_pos (by omega)]
      exact Or.inr ⟨0, rfl⟩
    · split
      · exact Or.inl ⟨_, rfl⟩
      · rename_i h1 h2
        have h2 := Decidable.of_not_not h2
        rw [if_neg (by omega), if_neg (by omega)]
        refine Or.inr ⟨i + 1, ?_⟩
        have : min (min n 0x7ffff000) (max 1 k) = n := by omega
        rw [this, Out.bind_ok]

/-- A `read` that returns all that it was asked for, as far as it is there. -/
def ReadRes.Whole : ReadRes → Prop
  | .fails => False
  | .upTo k => 0x7ffff000 ≤ k

theorem sysReadOn_steps (sched : Nat → ReadRes) (cap n : Nat) :
    Steps (fun i => (sched i).Whole) 1 (sysReadOn sched cap n) (sysRead cap n) := by
  intro i s hw
  have hw : (sched i).Whole := hw i (by omega) (by omega)
  unfold sysReadOn readOnce
  simp only
  cases hs : sched i with
  | fails => rw [hs] at hw; exact absurd hw id
  | upTo k =>
    rw [hs] at hw
    have hk : 0x7ffff000 ≤ k := hw
    simp only [List.length_take]
    unfold sysRead
    split
    · rename_i h
      rw [if_pos (by omega)]
      rfl
    · split
      · rw [if_neg (by omega), if_pos (by omega)]
        rfl
      · rename_i h1 h2
        have h2 := Decidable.of_not_not h2
        rw [if_neg (by omega), if_neg (by omega), Out.bind_ok]
        have : min (min n 0x7ffff000) (max 1 k) = n := by omega
        rw [this]

theorem fileBe32On_unless (sched : Nat → ReadRes) : Unless (fileBe32On sched) fileBe32 :=
  Unless.bind (g := fun b s => be32At b >>= fun v => .ok (v, s)) (sysReadOn_unless sched 4 4) (fun b i s => by
    cases be32At b with
    | ok v => exact Or.inr ⟨i, rfl⟩
    | err e => exact Or.inl ⟨e, rfl⟩
    | ub => exact Or.inr ⟨0, rfl⟩
    | loop => exact Or.inr ⟨0, rfl⟩)

theorem fileBe32On_steps (sched : Nat → ReadRes) : Steps (fun i => (sched i).Whole) 1 (fileBe32On sched) fileBe32 :=
  Steps.bind (l := 0) (g := fun b s => be32At b >>= fun v => .ok (v, s)) (sysReadOn_steps sched 4 4) (fun b i s _ => by
    cases be32At b <;> rfl)

theorem rdRpmonlyHeadOn_unless (sched : Nat → ReadRes) (d : Delta) : Unless (rdRpmonlyHeadOn sched d) (rdRpmonlyHead d) :=
  ((fileBe32On_unless sched).bind fun _ => Unless.ite (Unless.fail _) (Unless.pure _) : Unless (fileVersionOn sched) fileVersion).bind fun _ =>
    (fileBe32On_unless sched).bind fun _ =>
      ((sysReadOn_unless sched _ _).bind fun _ => Unless.ite (Unless.pure _) Unless.ub : Unless (fileNevrOn sched _) (fileNevr _)).bind fun _ =>
        (fileBe32On_unless sched).bind fun _ => (sysReadOn_unless sched _ _).bind fun _ => Unless.pure _

theorem rdRpmonlyHeadOn_steps (sched : Nat → ReadRes) (d : Delta) :
    Steps (fun i => (sched i).Whole) 5 (rdRpmonlyHeadOn sched d) (rdRpmonlyHead d) :=
  Steps.bind (k := 1) (l := 4)
    ((fileBe32On_steps sched).bind (l := 0) fun _ => Steps.ite (Steps.fail _ _) (Steps.pure _) : Steps _ 1 (fileVersionOn sched) fileVersion) fun _ =>
    Steps.bind (k := 1) (l := 3) (fileBe32On_steps sched) fun _ =>
      Steps.bind (k := 1) (l := 2)
        ((sysReadOn_steps sched _ _).bind (l := 0) fun _ => Steps.ite (Steps.pure _) (Steps.ub _) : Steps _ 1 (fileNevrOn sched _) (fileNevr _)) fun _ =>
        Steps.bind (k := 1) (l := 1) (fileBe32On_steps sched) fun _ =>
          Steps.bind (k := 1) (l := 0) (sysReadOn_steps sched _ _) fun _ => Steps.pure _

/-! ### The stream -/

theorem received_prefix (sched : Nat → ReadRes) : ∀ fuel i z, received sched fuel i z <+: z := by
  intro fuel
  induction fuel with
  | zero => intro i z; exact List.nil_prefix
  | succ fuel ih =>
    intro i z
    rw [received]
    unfold readOnce
    cases sched i with
    | fails => exact List.nil_prefix
    | upTo k =>
      simp only
      obtain ⟨t, ht⟩ := ih (i + 1) (z.drop (z.take (min (min 1024 0x7ffff000) (max 1 k))).length)
      refine ⟨t, ?_⟩
      rw [List.append_assoc, ht, List.length_take]
      by_cases hl : min (min 1024 0x7ffff000) (max 1 k) ≤ z.length
      · rw [Nat.min_eq_left hl, List.take_append_drop]
      · rw [Nat.min_eq_right (Nat.le_of_lt (Nat.lt_of_not_le hl)), List.take_of_length_le (Nat.le_of_lt (Nat.lt_of_not_le hl)), List.drop_length, List.append_nil]

theorem received_all (sched : Nat → ReadRes) (hn : ∀ i, sched i ≠ .fails) : ∀ fuel i z, z.length ≤ fuel → received sched fuel i z = z := by
  intro fuel
  induction fuel with
  | zero => intro i z h; rw [List.length_eq_zero_iff.mp (by omega : z.length = 0)]; rfl
  | succ fuel ih =>
    intro i z h
    rw [received]
    unfold readOnce
    cases hs : sched i with
    | fails => exact absurd hs (hn i)
    | upTo k =>
      simp only
      rw [ih _ _ (by rw [List.length_drop, List.length_take]; omega), List.length_take]
      by_cases hl : min (min 1024 0x7ffff000) (max 1 k) ≤ z.length
      · rw [Nat.min_eq_left hl, List.take_append_drop]
      · rw [Nat.min_eq_right (Nat.le_of_lt (Nat.lt_of_not_le hl)), List.take_of_length_le (Nat.le_of_lt (Nat.lt_of_not_le hl)), List.drop_length, List.append_nil]

theorem be64At_some {z : Bytes} (h : 8 ≤ z.length) : ∃ m, be64At z = .ok m := by
  match z, h with
  | b0 :: b1 :: b2 :: b3 :: b4 :: b5 :: b6 :: b7 :: r, _ => exact ⟨_, rfl⟩

theorem openStreamOn_cases (sched : Nat → ReadRes) {dec : Decoder} (hdec : ReadsInOrder dec) (i : Nat) (z : Bytes) :
    (∃ e, openStreamOn sched dec (i, z) = .err e) ∨
    ∃ c s s', openStream dec z = .ok (c, s) ∧ openStreamOn sched dec (i, z) = .ok (c, s') ∧ s' <+: s ∧
      ((∀ i, sched i ≠ .fails) → s' = s) := by
  unfold openStreamOn readOnce
  simp only
  cases hs : sched i with
  | fails => exact Or.inl ⟨_, rfl⟩
  | upTo k =>
    simp only
    by_cases h8 : (z.take (min (min 8 0x7ffff000) (max 1 k))).length ≠ 8
    · rw [if_pos h8]; exact Or.inl ⟨_, rfl⟩
    rw [if_neg h8]
    have h8 := Decidable.of_not_not h8
    right
    have hz : 8 ≤ z.length := by rw [List.length_take] at h8; omega
    obtain ⟨m, hm⟩ := be64At_some hz
    rw [be64At_prefix (List.take_prefix _ z) (by omega), hm, Out.bind_ok]
    unfold openStream
    rw [if_neg (by omega), hm, Out.bind_ok]
    have hp := received_prefix sched z.length (i + 1) z
    have ha := fun hn => received_all sched hn z.length (i + 1) z (Nat.le_refl _)
    generalize received sched z.length (i + 1) z = got at hp ha ⊢
    generalize detectComp m = c
    cases c
    case none => exact ⟨_, _, _, rfl, rfl, hp, ha⟩
    all_goals exact ⟨_, _, _, rfl, rfl, hdec _ _ _ hp, fun hn => by rw [ha hn]⟩

theorem openStreamOn_whole (sched : Nat → ReadRes) (hn : ∀ i, sched i ≠ .fails) (dec : Decoder) (i : Nat) (z : Bytes)
    (hi : (sched i).Whole) : openStreamOn sched dec (i, z) = openStream dec z := by
  unfold openStreamOn openStream readOnce
  simp only
  cases hs : sched i with
  | fails => exact absurd hs (hn i)
  | upTo k =>
    rw [hs] at hi
    have hk : 0x7ffff000 ≤ k := hi
    simp only [List.length_take]
    by_cases hz : z.length < 8
    · rw [if_pos (by omega), if_pos hz]
    rw [if_neg (by omega), if_neg hz, be64At_prefix (List.take_prefix _ z) (by rw [List.length_take]; omega),
      received_all sched hn z.length (i + 1) z (Nat.le_refl _)]
    rcases be64At z with m | e | _ | _
    · rw [Out.bind_ok, Out.bind_ok]
      cases detectComp m <;> rfl
    · rfl
    · rfl
    · rfl

/-- The compressed part, with the reads of the schedule. -/
theorem bodyOn_cases (sched : Nat → ReadRes) {dec : Decoder} (hdec : ReadsInOrder dec) (i : Nat) (z : Bytes) (g : Comp → Delta) :
    (∀ d, (openStreamOn sched dec (i, z) >>= fun x => rdRest (g x.1) x.2 >>= fun y => .ok y.1) = .ok d →
      (openStream dec z >>= fun x => rdRest (g x.1) x.2 >>= fun y => .ok y.1) = .ok d) ∧
    (∀ d, (openStream dec z >>= fun x => rdRest (g x.1) x.2 >>= fun y => .ok y.1) = .ok d →
      (openStreamOn sched dec (i, z) >>= fun x => rdRest (g x.1) x.2 >>= fun y => .ok y.1) = .ok d ∨
      ∃ e, (openStreamOn sched dec (i, z) >>= fun x => rdRest (g x.1) x.2 >>= fun y => .ok y.1) = .err e) := by
  rcases openStreamOn_cases sched hdec i z with ⟨e, k⟩ | ⟨c, s, s', k1, k2, k3, _⟩
  · rw [k, Out.bind_err]
    exact ⟨nofun, fun d _ => Or.inr ⟨e, rfl⟩⟩
  rw [k1, k2, Out.bind_ok, Out.bind_ok]
  simp only
  constructor
  · intro d h
    obtain ⟨⟨d', r⟩, h1, h⟩ := Out.bind_eq_ok.mp h
    cases h
    obtain ⟨c', e1, f, _⟩ := tight_rdRest (g c) s' d' r h1
    obtain ⟨t, ht⟩ := k3
    rw [← ht, e1, List.append_assoc, f, Out.bind_ok]
  · intro d h
    obtain ⟨⟨d', r⟩, h1, h⟩ := Out.bind_eq_ok.mp h
    cases h
    rcases (tight_rdRest (g c)).prefix h1 k3 with ⟨_, k⟩ | ⟨_, r', _, _, k⟩
    · exact Or.inr ⟨_, by rw [k, Out.bind_err]⟩
    · exact Or.inl (by rw [k, Out.bind_ok])

/-! ### The property -/

theorem readDeltaOn_cases (sched : Nat → ReadRes) (dec : Decoder) (hdec : ReadsInOrder dec) (rpmHead : Bytes → Out (Nat × Nat)) (file : Bytes) :
    (∀ d, readDeltaOn sched dec rpmHead file = .ok d → readDelta dec rpmHead file = .ok d) ∧
    (∀ d, readDelta dec rpmHead file = .ok d →
      readDeltaOn sched dec rpmHead file = .ok d ∨ ∃ e, readDeltaOn sched dec rpmHead file = .err e) := by
  unfold readDeltaOn readDelta
  rcases fileBe32On_unless sched 0 file with ⟨e, k⟩ | ⟨j, k⟩
  · rw [k, Out.bind_err]
    exact ⟨nofun, fun d _ => Or.inr ⟨e, rfl⟩⟩
  rw [k]
  rcases hq : fileBe32 file with ⟨magic, rest⟩ | e | _ | _
  rotate_left
  · exact ⟨nofun, nofun⟩
  · exact ⟨nofun, nofun⟩
  · exact ⟨nofun, nofun⟩
  rw [Out.bind_ok, Out.bind_ok, Out.bind_ok]
  simp only
  by_cases hm : magic = 0x6472706D
  · rw [if_pos hm, if_pos hm]
    rcases rdRpmonlyHeadOn_unless sched { Delta.zero with type := .rpmonly } j rest with ⟨e, k⟩ | ⟨j', k⟩
    · rw [k, Out.bind_err]
      exact ⟨nofun, fun d _ => Or.inr ⟨e, rfl⟩⟩
    rw [k]
    rcases hr : rdRpmonlyHead { Delta.zero with type := .rpmonly } rest with ⟨d1, z⟩ | e | _ | _
    rotate_left
    · exact ⟨nofun, nofun⟩
    · exact ⟨nofun, nofun⟩
    · exact ⟨nofun, nofun⟩
    rw [Out.bind_ok, Out.bind_ok, Out.bind_ok]
    exact bodyOn_cases sched hdec j' z (fun c => { d1 with comp := c.code })
  rw [if_neg hm, if_neg hm]
  by_cases hm2 : magic = 0xEDABEEDB
  · rw [if_pos hm2, if_pos hm2]
    rcases hr : rpmHead file with ⟨size, comp⟩ | e | _ | _
    rotate_left
    · exact ⟨nofun, nofun⟩
    · exact ⟨nofun, nofun⟩
    · exact ⟨nofun, nofun⟩
    rw [Out.bind_ok, Out.bind_ok]
    exact bodyOn_cases sched hdec j (file.drop size) (fun c => { Delta.zero with type := .standard, tgtComp := comp, comp := c.code })
  · rw [if_neg hm2, if_neg hm2]
    exact ⟨nofun, nofun⟩

/-- C104 (accepted): whatever the calls of `read` do, a delta that is accepted is the one that is in the file. -/
theorem C104_accepted (sched : Nat → ReadRes) (dec : Decoder) (hdec : ReadsInOrder dec) (rpmHead : Bytes → Out (Nat × Nat)) (file : Bytes)
    (d : Delta) (h : readDeltaOn sched dec rpmHead file = .ok d) : readDelta dec rpmHead file = .ok d :=
  (readDeltaOn_cases sched dec hdec rpmHead file).1 d h

/-- C104 (refused): if the file has a delta, then it is read, or there is an error; nothing else happens. -/
theorem C104_refused (sched : Nat → ReadRes) (dec : Decoder) (hdec : ReadsInOrder dec) (rpmHead : Bytes → Out (Nat × Nat)) (file : Bytes)
    (d : Delta) (h : readDelta dec rpmHead file = .ok d) :
    readDeltaOn sched dec rpmHead file = .ok d ∨ ∃ e, readDeltaOn sched dec rpmHead file = .err e :=
  (readDeltaOn_cases sched dec hdec rpmHead file).2 d h

/-- The number of `read` calls that the head of a delta takes: magic, version, length and name, length and data of the additional
    block, and eight bytes of the stream for an rpm-only delta, which begins with "drpm"; magic and eight bytes of the stream
    for any other. -/
def headReads (file : Bytes) : Nat := if file.take 4 = [0x64, 0x72, 0x70, 0x6D] then 7 else 2

theorem headReads_rpmonly {file rest : Bytes} (h : fileBe32 file = .ok (0x6472706D, rest)) : headReads file = 7 := by
  unfold headReads
  rw [if_pos]
  match file with
  | [] => cases h
  | [_] => cases h
  | [_, _] => cases h
  | [_, _, _] => cases h
  | b0 :: b1 :: b2 :: b3 :: r =>
    obtain ⟨⟨b, s⟩, h1, h2⟩ := Out.bind_eq_ok.mp (show (sysRead 4 4 (b0 :: b1 :: b2 :: b3 :: r) >>= fun x => be32At x.1 >>= fun v => .ok (v, x.2)) = _ from h)
    have hb : b = [b0, b1, b2, b3] := by
      unfold sysRead at h1
      rw [if_neg (by omega), if_neg (by simp only [List.length_cons]; omega)] at h1
      cases h1
      rfl
    subst hb
    obtain ⟨v, h3, h4⟩ := Out.bind_eq_ok.mp h2
    cases h4
    have h5 : parseBe32 b0 b1 b2 b3 = 0x6472706D := Out.ok.inj h3
    rw [parseBe32_val] at h5
    have l0 := b0.toNat_lt
    have l1 := b1.toNat_lt
    have l2 := b2.toNat_lt
    have l3 := b3.toNat_lt
    have e0 : b0 = 0x64 := UInt8.toNat.inj (show b0.toNat = 0x64 by omega)
    have e1 : b1 = 0x72 := UInt8.toNat.inj (show b1.toNat = 0x72 by omega)
    have e2 : b2 = 0x70 := UInt8.toNat.inj (show b2.toNat = 0x70 by omega)
    have e3 : b3 = 0x6D := UInt8.toNat.inj (show b3.toNat = 0x6D by omega)
    rw [e0, e1, e2, e3]
    rfl

theorem headReads_two (file : Bytes) : 2 ≤ headReads file := by
  unfold headReads
  split <;> omega

/-- C104 (partial): if no `read` fails, the result is that of the whole file, however the data arrive in pieces, provided the
    calls of `read` for the head return all that they are asked for. Missing: short reads
    among these, see `C104_violated`. -/
theorem C104_pieces_partial (sched : Nat → ReadRes) (hn : ∀ i, sched i ≠ .fails) (dec : Decoder) (rpmHead : Bytes → Out (Nat × Nat)) (file : Bytes)
    (hw : ∀ i, i < headReads file → (sched i).Whole) :
    readDeltaOn sched dec rpmHead file = readDelta dec rpmHead file := by
  have h2 := headReads_two file
  unfold readDeltaOn readDelta
  rw [fileBe32On_steps sched 0 file (fun j _ h => hw j (by omega))]
  rcases hq : fileBe32 file with ⟨magic, rest⟩ | e | _ | _
  rotate_left
  · rfl
  · rfl
  · rfl
  rw [Out.bind_ok, Out.bind_ok, Out.bind_ok]
  simp only
  by_cases hm : magic = 0x6472706D
  · have h7 := headReads_rpmonly (hm ▸ hq)
    rw [if_pos hm, if_pos hm, rdRpmonlyHeadOn_steps sched { Delta.zero with type := .rpmonly } (0 + 1) rest (fun j _ h => hw j (by omega))]
    rcases hr : rdRpmonlyHead { Delta.zero with type := .rpmonly } rest with ⟨d1, z⟩ | e | _ | _
    rotate_left
    · rfl
    · rfl
    · rfl
    rw [Out.bind_ok, Out.bind_ok, Out.bind_ok]
    simp only
    rw [openStreamOn_whole sched hn dec _ z (hw _ (by omega))]
  rw [if_neg hm, if_neg hm]
  by_cases hm2 : magic = 0xEDABEEDB
  · rw [if_pos hm2, if_pos hm2]
    rcases hr : rpmHead file with ⟨size, comp⟩ | e | _ | _
    rotate_left
    · rfl
    · rfl
    · rfl
    rw [Out.bind_ok, Out.bind_ok]
    simp only
    rw [openStreamOn_whole sched hn dec _ _ (hw _ (by omega))]
  · rw [if_neg hm2, if_neg hm2]

/-- C104 is violated in the strong sense, that the way the data arrive does not matter: for every file there is a way in
    which it arrives, without a failure, so that it is refused. It is enough that the first `read` returns two bytes. -/
theorem C104_violated (dec : Decoder) (rpmHead : Bytes → Out (Nat × Nat)) (file : Bytes) :
    readDeltaOn (fun _ => .upTo 2) dec rpmHead file = .err .format := by
  have : fileBe32On (fun _ => .upTo 2) (0, file) = .err .format := by
    have : sysReadOn (fun _ => .upTo 2) 4 4 (0, file) = .err .format := by
      unfold sysReadOn readOnce
      simp only [List.length_take]
      rw [if_neg (by omega), if_pos (by omega)]
    show (sysReadOn (fun _ => .upTo 2) 4 4 (0, file) >>= _) = _
    rw [this, Out.bind_err]
  unfold readDeltaOn
  rw [this, Out.bind_err]

/-- Non-vacuity of C104_pieces_partial and of C104_accepted: the delta of C100, one byte at a time after the head, is
    accepted; if a `read` fails in the middle, it is refused, and so it is if the second `read` is short. -/
example : let slow : Nat → ReadRes := fun i => if i < 2 then .upTo 0x7ffff000 else .upTo 1
    let broken : Nat → ReadRes := fun i => if i = 20 then .fails else slow i
    let short : Nat → ReadRes := fun i => if i = 1 then .upTo 3 else .upTo 0x7ffff000
    Out.okAnd (readDeltaOn slow instEnv.dec instEnv.rpmHead movedDelta) (fun d => decide (d.srcNevr ≠ [])) = true ∧
    readDeltaOn broken instEnv.dec instEnv.rpmHead movedDelta = .err .format ∧
    readDeltaOn short instEnv.dec instEnv.rpmHead movedDelta = .err .format ∧ 60 < movedDelta.length ∧ headReads movedDelta = 2 := by
  decide +kernel

end Drpm
