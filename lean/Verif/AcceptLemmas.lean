import Verif.FormatLemmas
import Verif.Props.Encoding
/-!
# What an accepted delta satisfies, and when reading is defined
-/

namespace Drpm

/-- Every successful run of `m` on `s` satisfies `Q`. -/
def Post {α : Type} (m : P α) (s : Bytes) (Q : α → Bytes → Prop) : Prop :=
  ∀ a r, m s = .ok (a, r) → Q a r

/-- `m` on `s` is defined, and every success satisfies `Q`. -/
def Safe {α : Type} (m : P α) (s : Bytes) (Q : α → Bytes → Prop) : Prop :=
  (m s).Defined ∧ Post m s Q

theorem Post.bind {α β : Type} {m : P α} {f : α → P β} {s : Bytes} {Q : α → Bytes → Prop}
    {R : β → Bytes → Prop} (h : Post m s Q) (hf : ∀ a r, Q a r → Post (f a) r R) :
    Post (m >>= f) s R := by
  intro b r hb
  rw [P.bind_run, Out.bind_eq_ok] at hb
  obtain ⟨⟨a, r'⟩, h1, h2⟩ := hb
  exact hf a r' (h a r' h1) b r h2

theorem Post.pure {α : Type} {a : α} {s : Bytes} {Q : α → Bytes → Prop} (h : Q a s) :
    Post (Pure.pure a : P α) s Q := by
  intro b r hb
  cases hb
  exact h

theorem Post.mono {α : Type} {m : P α} {s : Bytes} {Q R : α → Bytes → Prop} (h : Post m s Q)
    (hi : ∀ a r, Q a r → R a r) : Post m s R := fun a r e => hi a r (h a r e)

theorem Post.fail {α : Type} {e : Err} {s : Bytes} {Q : α → Bytes → Prop} :
    Post (P.fail e : P α) s Q := by
  intro b r hb; cases hb

theorem Post.ub {α : Type} {s : Bytes} {Q : α → Bytes → Prop} : Post (P.ub : P α) s Q := by
  intro b r hb; cases hb

theorem Safe.bind {α β : Type} {m : P α} {f : α → P β} {s : Bytes} {Q : α → Bytes → Prop}
    {R : β → Bytes → Prop} (h : Safe m s Q) (hf : ∀ a r, Q a r → Safe (f a) r R) :
    Safe (m >>= f) s R := by
  refine ⟨?_, h.2.bind (fun a r q => (hf a r q).2)⟩
  rw [P.bind_run]
  exact h.1.bind (fun a e => (hf a.1 a.2 (h.2 a.1 a.2 e)).1)

theorem Safe.pure {α : Type} {a : α} {s : Bytes} {Q : α → Bytes → Prop} (h : Q a s) :
    Safe (Pure.pure a : P α) s Q := ⟨Out.defined_ok _, Post.pure h⟩

theorem Safe.fail {α : Type} {e : Err} {s : Bytes} {Q : α → Bytes → Prop} :
    Safe (P.fail e : P α) s Q := ⟨Out.defined_err _, Post.fail⟩

theorem Safe.mono {α : Type} {m : P α} {s : Bytes} {Q R : α → Bytes → Prop} (h : Safe m s Q)
    (hi : ∀ a r, Q a r → R a r) : Safe m s R := ⟨h.1, h.2.mono hi⟩

theorem Safe.ite {α : Type} {c : Prop} [Decidable c] {m n : P α} {s : Bytes}
    {Q : α → Bytes → Prop} (h1 : c → Safe m s Q) (h2 : ¬ c → Safe n s Q) :
    Safe (if c then m else n) s Q := by
  by_cases h : c
  · rw [if_pos h]; exact h1 h
  · rw [if_neg h]; exact h2 h

theorem Post.ite {α : Type} {c : Prop} [Decidable c] {m n : P α} {s : Bytes}
    {Q : α → Bytes → Prop} (h1 : c → Post m s Q) (h2 : ¬ c → Post n s Q) :
    Post (if c then m else n) s Q := by
  by_cases h : c
  · rw [if_pos h]; exact h1 h
  · rw [if_neg h]; exact h2 h

/-! ## The primitive readers -/

theorem rdN_safe (n : Nat) (data : Bytes) (p : Nat) :
    Safe (rdN n) (data.drop p) (fun b r => b = slice data p n ∧ r = data.drop (p + n) ∧
      p + n ≤ max p data.length ∧ b.length = n) := by
  unfold Safe Post rdN
  by_cases h : n ≤ (data.drop p).length
  · rw [if_pos h]
    refine ⟨Out.defined_ok _, ?_⟩
    intro a r e
    cases e
    rw [List.length_drop] at h
    refine ⟨rfl, by rw [List.drop_drop], by omega, ?_⟩
    simp; omega
  · rw [if_neg h]
    exact ⟨Out.defined_err _, fun a r e => by cases e⟩

theorem be32At_word (b : Bytes) (h : b.length = 4) :
    be32At b = .ok (b.foldl (fun a b => a * 256 + b.toNat) 0) ∧
    b.foldl (fun a b => a * 256 + b.toNat) 0 < 2^32 := by
  match b, h with
  | [b0, b1, b2, b3], _ =>
    have h0 := u8_lt b0; have h1 := u8_lt b1; have h2 := u8_lt b2; have h3 := u8_lt b3
    simp only [be32At, parseBe32_val, List.foldl_cons, List.foldl_nil]
    refine ⟨?_, by omega⟩
    rw [show b0.toNat * 2^24 + (b1.toNat * 2^16 + (b2.toNat * 2^8 + b3.toNat)) =
      (((0 * 256 + b0.toNat) * 256 + b1.toNat) * 256 + b2.toNat) * 256 + b3.toNat by omega]

theorem rdBe32_safe (data : Bytes) (p : Nat) :
    Safe rdBe32 (data.drop p) (fun v r => v = word data p ∧ r = data.drop (p + 4) ∧ v < 2^32) := by
  have h := rdN_safe 4 data p
  unfold Safe Post rdBe32
  constructor
  · refine h.1.bind ?_
    intro a e
    obtain ⟨_, _, _, hl⟩ := h.2 a.1 a.2 e
    rw [(be32At_word _ hl).1]
    exact Out.defined_ok _
  · intro v r e
    rw [Out.bind_eq_ok] at e
    obtain ⟨⟨b, r'⟩, e1, e2⟩ := e
    obtain ⟨hb, hr, _, hl⟩ := h.2 b r' e1
    simp only [(be32At_word b hl).1, Out.bind_ok, Out.ok.injEq, Prod.mk.injEq] at e2
    obtain ⟨rfl, rfl⟩ := e2
    refine ⟨?_, hr, (be32At_word b hl).2⟩
    rw [hb]; rfl

theorem rdBe64_safe (data : Bytes) (p : Nat) :
    Safe rdBe64 (data.drop p) (fun v r => r = data.drop (p + 8) ∧ v < 2^64) := by
  have h := rdN_safe 8 data p
  have key : ∀ b : Bytes, b.length = 8 → ∃ v, be64At b = .ok v ∧ v < 2^64 := by
    intro b hb
    match b, hb with
    | [b0, b1, b2, b3, b4, b5, b6, b7], _ =>
      exact ⟨_, rfl, parseBe64_lt _ _ _ _ _ _ _ _⟩
  unfold Safe Post rdBe64
  constructor
  · refine h.1.bind ?_
    intro a e
    obtain ⟨_, _, _, hl⟩ := h.2 a.1 a.2 e
    obtain ⟨v, hv, _⟩ := key _ hl
    rw [hv]
    exact Out.defined_ok _
  · intro v r e
    rw [Out.bind_eq_ok] at e
    obtain ⟨⟨b, r'⟩, e1, e2⟩ := e
    obtain ⟨hb, hr, _, hl⟩ := h.2 b r' e1
    obtain ⟨v', hv, hv2⟩ := key b hl
    simp only [hv, Out.bind_ok, Out.ok.injEq, Prod.mk.injEq] at e2
    obtain ⟨rfl, rfl⟩ := e2
    exact ⟨hr, hv2⟩

theorem rdInto_safe (cap n : Nat) (data : Bytes) (p : Nat) (h : n ≤ cap) :
    Safe (rdInto cap n) (data.drop p) (fun b r => b = slice data p n ∧ r = data.drop (p + n) ∧
      b.length = n) := by
  unfold rdInto
  refine (rdN_safe n data p).bind ?_
  intro b r ⟨h1, h2, _, h4⟩
  rw [if_pos h]
  exact Safe.pure ⟨h1, h2, h4⟩

theorem rdNevr_safe (n : Nat) (data : Bytes) (p : Nat) (h : n + 1 < 2^32) :
    Safe (rdNevr n) (data.drop p) (fun _ r => r = data.drop (p + n)) := by
  unfold rdNevr
  refine (rdInto_safe _ n data p (by omega)).bind ?_
  intro b r ⟨_, h2, _⟩
  rw [if_pos (by omega)]
  exact Safe.pure h2

theorem rdElems_safe (cap : Nat) (conv : Nat → Nat) (data : Bytes) (n i p : Nat)
    (h : 0 < n → (i + 2 * n) * 4 ≤ cap + 4) :
    Safe (rdElems cap conv n i) (data.drop p) (fun l r => l.length = n ∧ r = data.drop (p + 4 * n) ∧
      ∀ x ∈ l, ∃ w < 2^32, x = conv w) := by
  induction n generalizing i p with
  | zero => exact Safe.pure ⟨rfl, by simp, by simp⟩
  | succ n ih =>
    unfold rdElems
    refine (rdBe32_safe data p).bind ?_
    intro v r ⟨_, h2, h3⟩
    have hc := h (by omega)
    rw [if_pos (by omega)]
    refine (Safe.pure (Q := fun _ r => r = data.drop (p + 4)) h2).bind ?_
    intro _ r' hr'
    subst hr'
    refine (ih (i + 2) (p + 4) (by omega)).bind ?_
    intro l r2 ⟨g1, g2, g3⟩
    refine Safe.pure ⟨by simp [g1], by rw [g2]; congr 1; omega, ?_⟩
    intro x hx
    simp only [List.mem_cons] at hx
    rcases hx with rfl | hx
    · exact ⟨v, h3, rfl⟩
    · exact g3 x hx

/-- The same without the bound: only for what a success means. -/
theorem rdElems_post (cap : Nat) (conv : Nat → Nat) (data : Bytes) (n i p : Nat) :
    Post (rdElems cap conv n i) (data.drop p) (fun l r => l.length = n ∧ r = data.drop (p + 4 * n) ∧
      ∀ x ∈ l, ∃ w < 2^32, x = conv w) := by
  induction n generalizing i p with
  | zero => exact Post.pure ⟨rfl, by simp, by simp⟩
  | succ n ih =>
    unfold rdElems
    refine (rdBe32_safe data p).2.bind ?_
    intro v r ⟨_, h2, h3⟩
    refine Post.bind (Q := fun _ r => r = data.drop (p + 4)) (Post.ite (fun _ => Post.pure h2)
      (fun _ => Post.ub)) ?_
    intro _ r' hr'
    subst hr'
    refine (ih (i + 2) (p + 4)).bind ?_
    intro l r2 ⟨g1, g2, g3⟩
    refine Post.pure ⟨by simp [g1], by rw [g2]; congr 1; omega, ?_⟩
    intro x hx
    simp only [List.mem_cons] at hx
    rcases hx with rfl | hx
    · exact ⟨v, h3, rfl⟩
    · exact g3 x hx

theorem smDecode_lt (x : Nat) (h : x < 2^32) : smDecode x < 2^32 := by
  unfold smDecode
  split
  · unfold twosComplement32; omega
  · exact h

theorem words_zip (c1 c2 : Nat → Nat) (a b : List Nat) (hc1 : ∀ w < 2^32, c1 w < 2^32)
    (hc2 : ∀ w < 2^32, c2 w < 2^32) (ha : ∀ x ∈ a, ∃ w < 2^32, x = c1 w)
    (hb : ∀ x ∈ b, ∃ w < 2^32, x = c2 w) : Words (a.zip b) := by
  intro p hp
  obtain ⟨x, y⟩ := p
  obtain ⟨h1, h2⟩ := List.of_mem_zip hp
  obtain ⟨w, hw, rfl⟩ := ha x h1
  obtain ⟨w', hw', rfl⟩ := hb y h2
  exact ⟨hc1 _ hw, hc2 _ hw'⟩

theorem rdPairs_post (count : Nat) (c1 c2 : Nat → Nat) (data : Bytes) (p : Nat)
    (hc1 : ∀ w < 2^32, c1 w < 2^32) (hc2 : ∀ w < 2^32, c2 w < 2^32) :
    Post (rdPairs count c1 c2) (data.drop p) (fun l r => l.length = pairRounds count ∧ Words l ∧
      r = data.drop (p + 8 * pairRounds count)) := by
  unfold rdPairs
  refine (rdElems_post _ c1 data _ 0 p).bind ?_
  intro a r ⟨h1, h2, h3⟩
  subst h2
  refine (rdElems_post _ c2 data _ 1 _).bind ?_
  intro b r ⟨g1, g2, g3⟩
  exact Post.pure ⟨by simp [h1, g1], words_zip c1 c2 a b hc1 hc2 h3 g3, by rw [g2]; congr 1; omega⟩

theorem rdPairs_safe (count : Nat) (c1 c2 : Nat → Nat) (data : Bytes) (p : Nat)
    (h : count < 2^29) :
    Safe (rdPairs count c1 c2) (data.drop p) (fun _ r => r = data.drop (p + 8 * count)) := by
  unfold rdPairs
  rw [pairRounds_small _ h]
  refine (rdElems_safe _ c1 data _ 0 p (by omega)).bind ?_
  intro a r ⟨h1, h2, h3⟩
  subst h2
  refine (rdElems_safe _ c2 data _ 1 _ (by omega)).bind ?_
  intro b r ⟨g1, g2, g3⟩
  exact Safe.pure (by rw [g2]; congr 1; omega)

theorem rdBuf_safe (data : Bytes) (p : Nat) :
    Safe rdBuf (data.drop p) (fun _ r => r = data.drop (p + 4 + word data p)) := by
  unfold rdBuf
  refine (rdBe32_safe data p).bind ?_
  intro v r ⟨h1, h2, h3⟩
  subst h1 h2
  exact (rdInto_safe _ _ data _ (Nat.le_refl _)).mono (fun _ _ h => h.2.1)

/-! ## The parts of the reader -/

/-- The version as the reader computes it. -/
def versionOf (w : Nat) : Nat := (w % 256 + 2^16 - 48) % 2^16

theorem rdVersion_safe (t : DType) (data : Bytes) (p : Nat) :
    Safe (rdVersion t) (data.drop p) (fun v r => v = versionOf (word data p) ∧
      r = data.drop (p + 4) ∧ word data p >>> 8 = 0x444C54 ∧ (t = .rpmonly → 3 ≤ v)) := by
  unfold rdVersion
  refine (rdBe32_safe data p).bind ?_
  intro v r ⟨h1, h2, h3⟩
  subst h1 h2
  refine Safe.ite (fun _ => Safe.fail) (fun hm => ?_)
  refine Safe.ite (fun _ => Safe.fail) (fun hv => ?_)
  refine Safe.pure ⟨rfl, rfl, by simpa using hm, fun ht => ?_⟩
  rw [not_and] at hv
  have : ¬ (word data p % 256 + 2^16 - 48) % 2^16 < 3 := fun h => hv h ht
  omega

theorem rdSequence_safe (t : DType) (data : Bytes) (p : Nat) :
    Safe (rdSequence t) (data.drop p) (fun b r => r = data.drop (p + 4 + word data p) ∧
      16 ≤ b.length ∧ (t = .rpmonly → b.length = 16)) := by
  unfold rdSequence
  refine (rdBe32_safe data p).bind ?_
  intro v r ⟨h1, h2, h3⟩
  subst h1 h2
  refine Safe.ite (fun _ => Safe.fail) (fun hm => ?_)
  refine (rdInto_safe _ _ data _ (Nat.le_refl _)).mono (fun b r h => ⟨h.2.1, ?_, ?_⟩)
  · rw [h.2.2]; omega
  · intro ht
    rw [h.2.2]
    by_cases h16 : word data p = 16
    · exact h16
    · exact absurd (Or.inr ⟨h16, ht⟩) hm

theorem rdPart1_safe (d : Delta) (data : Bytes) (hn : word data 4 + 1 < 2^32) :
    Safe (rdPart1 d) data (fun d' r => r = data.drop (v2Pos data) ∧
      d'.version = versionOf (word data 0) ∧ d'.type = d.type ∧ d'.addData = d.addData) := by
  unfold rdPart1
  have e0 : data = data.drop 0 := rfl
  conv => arg 2; rw [e0]
  refine (rdVersion_safe _ data 0).bind ?_
  intro v r ⟨h1, h2, _, _⟩
  subst h2
  refine (rdBe32_safe data _).bind ?_
  intro n r ⟨h3, h4, h5⟩
  simp only [Nat.zero_add] at h3
  subst h4
  refine (rdNevr_safe n data _ (by omega)).bind ?_
  intro b r h6
  subst h6
  refine (rdSequence_safe _ data _).bind ?_
  intro sq r ⟨h7, _, _⟩
  subst h7
  refine (rdInto_safe 16 16 data _ (Nat.le_refl _)).bind ?_
  intro m r ⟨_, h8, _⟩
  refine Safe.pure ⟨?_, h1, rfl, rfl⟩
  rw [h8]
  unfold v2Pos seqLenPos
  subst h3
  congr 1

theorem rdV2_safe (d : Delta) (data : Bytes) (hv : d.version = versionOf (word data 0))
    (ho : versionDigit data = 51 → word data (offadjCountPos data) < 2^29) :
    Safe (rdV2 d) (data.drop (v2Pos data)) (fun d' r => r = data.drop (leadsigPos data) ∧
      d'.version = d.version ∧ d'.type = d.type ∧ d'.addData = d.addData) := by
  unfold rdV2
  have hvd : d.version = (versionDigit data + 2^16 - 48) % 2^16 := hv
  have hd : versionDigit data < 256 := Nat.mod_lt _ (by omega)
  refine Safe.ite (fun h2 => ?_) (fun h2 => ?_)
  · refine (rdBe32_safe data _).bind ?_
    intro sz r ⟨_, g1, _⟩
    subst g1
    refine (rdBe32_safe data _).bind ?_
    intro c r ⟨_, g2, _⟩
    subst g2
    have hT : Safe (rdTgtComp c) (data.drop (v2Pos data + 4 + 4))
        (fun _ r => r = data.drop (v2Pos data + 4 + 4)) := by
      unfold rdTgtComp
      split
      · exact Safe.fail
      · exact Safe.pure rfl
    refine hT.bind ?_
    intro cl r g3
    subst g3
    refine (rdBuf_safe data _).bind ?_
    intro pb r g4
    have e4 : r = data.drop (v3Pos data) := by
      rw [g4]; unfold v3Pos; congr 1
    subst e4
    unfold rdV3
    refine Safe.ite (fun h3 => ?_) (fun h3 => ?_)
    · have h51 : versionDigit data = 51 := by
        simp only at h3; omega
      refine (rdBe32_safe data _).bind ?_
      intro hl r ⟨_, g5, _⟩
      subst g5
      refine (rdBe32_safe data _).bind ?_
      intro oc r ⟨g6, g7, _⟩
      subst g7
      have hoc : oc < 2^29 := by
        have := ho h51
        unfold offadjCountPos at this
        omega
      refine (rdPairs_safe oc id smDecode data _ hoc).bind ?_
      intro oa r g8
      refine Safe.pure ⟨?_, rfl, rfl, rfl⟩
      rw [g8, g6]
      unfold leadsigPos offadjCountPos
      rw [if_pos h51]
    · have h51 : versionDigit data ≠ 51 := by
        simp only at h3; omega
      refine Safe.pure ⟨?_, rfl, rfl, rfl⟩
      unfold leadsigPos
      rw [if_neg h51, if_pos (by omega)]
  · refine Safe.pure ⟨?_, rfl, rfl, rfl⟩
    unfold leadsigPos
    rw [if_neg (by omega), if_neg (by omega)]

theorem rdPart3_safe (d : Delta) (data : Bytes) (hi : word data (intCountPos data) < 2^29)
    (he : word data (extCountPos data) < 2^29) :
    Safe (rdPart3 d) (data.drop (leadsigPos data)) (fun _ r => ∃ p, r = data.drop p) := by
  unfold rdPart3
  refine Safe.bind (Q := fun _ r => r = data.drop (leadsigPos data))
    (Safe.ite (fun _ => Safe.fail) (fun _ => Safe.pure rfl)) ?_
  intro _ r g
  subst g
  have hL : Safe rdLeadsig (data.drop (leadsigPos data))
      (fun _ r => r = data.drop (leadsigPos data + 4 + word data (leadsigPos data))) := by
    unfold rdLeadsig
    refine (rdBe32_safe data _).bind ?_
    intro v r ⟨h1, h2, h3⟩
    subst h1 h2
    refine Safe.ite (fun _ => Safe.fail) (fun hm => ?_)
    exact (rdInto_safe _ _ data _ (Nat.le_refl _)).mono (fun b r h => h.2.1)
  refine hL.bind ?_
  intro ls r g
  subst g
  refine (rdBe32_safe data _).bind ?_
  intro pf r ⟨_, g, _⟩
  subst g
  refine (rdBe32_safe data _).bind ?_
  intro ic r ⟨h1, g, _⟩
  subst g
  refine (rdBe32_safe data _).bind ?_
  intro ec r ⟨h2, g, _⟩
  subst g
  refine (rdPairs_safe ic id id data _ (by rw [h1]; exact hi)).bind ?_
  intro is r g
  subst g
  refine (rdPairs_safe ec smDecode id data _ (by rw [h2]; exact he)).bind ?_
  intro es r g
  exact Safe.pure ⟨_, g⟩

theorem rdLen_safe (v : Nat) (data : Bytes) (p : Nat) :
    Safe (rdLen v) (data.drop p) (fun n r => (∃ q, r = data.drop q) ∧ n < 2^64) := by
  unfold rdLen
  refine Safe.ite (fun _ => ?_) (fun _ => ?_)
  · exact (rdBe64_safe data p).mono (fun _ _ h => ⟨⟨_, h.1⟩, h.2⟩)
  · exact (rdBe32_safe data p).mono (fun _ _ h => ⟨⟨_, h.2.1⟩, by have := h.2.2; omega⟩)

theorem rdAdd_safe (t : DType) (keep : Bytes) (data : Bytes) (p : Nat) :
    Safe (rdAdd t keep) (data.drop p) (fun _ r => ∃ q, r = data.drop q) := by
  unfold rdAdd
  refine (rdBe32_safe data _).bind ?_
  intro n r ⟨_, g, _⟩
  subst g
  refine Safe.ite (fun _ => Safe.ite (fun _ => Safe.fail) (fun _ => ?_)) (fun _ => Safe.pure ⟨_, rfl⟩)
  exact (rdInto_safe _ _ data _ (Nat.le_refl _)).mono (fun b r h => ⟨_, h.2.1⟩)

theorem rdPart4_safe (d : Delta) (data : Bytes) (p : Nat) :
    Safe (rdPart4 d) (data.drop p) (fun d' r => (∃ q, r = data.drop q) ∧ d'.ints = d.ints ∧
      d'.exts = d.exts ∧ d'.intCount = d.intCount ∧ d'.extCount = d.extCount ∧
      d'.version = d.version ∧ d'.type = d.type ∧
      d'.intPtrs = none ∧ d'.intBytes.length = d'.intDataLen ∧ d'.intDataLen ≤ data.length ∧
      d'.extDataLen < 2^64 ∧ d'.sequence = d.sequence ∧ d'.tgtLeadsig = d.tgtLeadsig ∧
      d'.tgtHeaderLen = d.tgtHeaderLen) := by
  unfold rdPart4
  refine (rdLen_safe _ data p).bind ?_
  intro el r ⟨⟨q, g⟩, hel⟩
  subst g
  refine (rdAdd_safe _ _ data q).bind ?_
  intro ad r ⟨q2, g⟩
  subst g
  refine (rdLen_safe _ data q2).bind ?_
  intro il r ⟨⟨q3, g⟩, _⟩
  subst g
  refine (rdInto_safe _ _ data _ (Nat.le_refl _)).bind ?_
  intro ib r ⟨h1, h2, h3⟩
  refine Safe.pure ⟨⟨_, h2⟩, rfl, rfl, rfl, rfl, rfl, rfl, rfl, h3, ?_, hel, rfl, rfl, rfl⟩
  simp only
  have := congrArg List.length h1
  rw [h3] at this
  simp only [slice, List.length_take, List.length_drop] at this
  omega

theorem rdChecks_safe (d : Delta) (s : Bytes) :
    Safe (rdChecks d) s (fun d' _ => d' = d ∧ intCheck d.intDataLen 0 d.ints = true ∧
      extCheck d.extDataLen 0 d.exts = true) := by
  unfold rdChecks
  refine Safe.ite (fun h => Safe.ite (fun h2 => Safe.pure ⟨rfl, h, h2⟩) (fun _ => Safe.fail))
    (fun _ => Safe.fail)

/-- Reading is defined if the name length and the counts are not near the 32-bit limit. -/
theorem rdRest_safe (d : Delta) (data : Bytes) (hn : word data 4 + 1 < 2^32)
    (ho : versionDigit data = 51 → word data (offadjCountPos data) < 2^29)
    (hi : word data (intCountPos data) < 2^29) (he : word data (extCountPos data) < 2^29) :
    (rdRest d data).Defined := by
  suffices h : Safe (rdRest d) data (fun _ _ => True) from h.1
  unfold rdRest
  refine (rdPart1_safe d data hn).bind ?_
  intro d1 r ⟨g1, g2, _⟩
  subst g1
  refine (rdV2_safe d1 data g2 ho).bind ?_
  intro d2 r ⟨g3, _⟩
  subst g3
  refine (rdPart3_safe d2 data hi he).bind ?_
  intro d3 r ⟨p, g4⟩
  subst g4
  refine (rdPart4_safe d3 data p).bind ?_
  intro d4 r _
  exact (rdChecks_safe d4 r).mono (fun _ _ _ => trivial)

/-! ## What acceptance means, with no assumption on the counts -/

theorem rdNevr_post (n : Nat) (data : Bytes) (p : Nat) :
    Post (rdNevr n) (data.drop p) (fun _ r => r = data.drop (p + n)) := by
  unfold rdNevr rdInto
  refine Post.bind (Q := fun _ r => r = data.drop (p + n)) ?_ ?_
  · refine (rdN_safe n data p).2.bind ?_
    intro b r ⟨_, h, _⟩
    exact Post.ite (fun _ => Post.pure h) (fun _ => Post.ub)
  · intro b r h
    exact Post.ite (fun _ => Post.pure h) (fun _ => Post.ub)

theorem rdPart1_post (d : Delta) (data : Bytes) :
    Post (rdPart1 d) data (fun d' r => (∃ p, r = data.drop p) ∧
      d'.version = versionOf (word data 0) ∧ word data 0 >>> 8 = 0x444C54 ∧ d'.type = d.type ∧
      (d.type = .rpmonly → 3 ≤ d'.version ∧ d'.sequence.length = 16) ∧ 16 ≤ d'.sequence.length ∧
      d'.tgtMd5.length = 16) := by
  unfold rdPart1
  have e0 : data = data.drop 0 := rfl
  conv => arg 2; rw [e0]
  refine (rdVersion_safe _ data 0).2.bind ?_
  intro v r ⟨h1, h2, h3, h4⟩
  subst h2
  refine (rdBe32_safe data _).2.bind ?_
  intro n r ⟨_, g, _⟩
  subst g
  refine (rdNevr_post n data _).bind ?_
  intro b r g
  subst g
  refine (rdSequence_safe _ data _).2.bind ?_
  intro sq r ⟨g, k1, k2⟩
  subst g
  refine (rdInto_safe 16 16 data _ (Nat.le_refl _)).2.bind ?_
  intro m r ⟨_, h8, k3⟩
  exact Post.pure ⟨⟨_, h8⟩, h1, h3, rfl, fun h => ⟨h4 h, k2 h⟩, k1, k3⟩

theorem rdV2_post (d : Delta) (data : Bytes) (p : Nat) :
    Post (rdV2 d) (data.drop p) (fun d' r => (∃ q, r = data.drop q) ∧ d'.version = d.version ∧
      d'.type = d.type ∧ d'.sequence = d.sequence) := by
  unfold rdV2
  refine Post.ite (fun _ => ?_) (fun _ => Post.pure ⟨⟨_, rfl⟩, rfl, rfl, rfl⟩)
  refine (rdBe32_safe data _).2.bind ?_
  intro sz r ⟨_, g, _⟩
  subst g
  refine (rdBe32_safe data _).2.bind ?_
  intro c r ⟨_, g, _⟩
  subst g
  refine Post.bind (Q := fun _ r => ∃ q, r = data.drop q) ?_ ?_
  · unfold rdTgtComp
    split
    · exact Post.fail
    · exact Post.pure ⟨_, rfl⟩
  · intro cl r ⟨q, g⟩
    subst g
    refine (rdBuf_safe data _).2.bind ?_
    intro pb r g
    subst g
    unfold rdV3
    refine Post.ite (fun _ => ?_) (fun _ => Post.pure ⟨⟨_, rfl⟩, rfl, rfl, rfl⟩)
    refine (rdBe32_safe data _).2.bind ?_
    intro hl r ⟨_, g, _⟩
    subst g
    refine (rdBe32_safe data _).2.bind ?_
    intro oc r ⟨_, g, _⟩
    subst g
    refine (rdPairs_post oc id smDecode data _ (fun _ h => h) smDecode_lt).bind ?_
    intro oa r ⟨_, _, g⟩
    exact Post.pure ⟨⟨_, g⟩, rfl, rfl, rfl⟩

theorem rdPart3_post (d : Delta) (data : Bytes) (p : Nat) :
    Post (rdPart3 d) (data.drop p) (fun d' r => (∃ q, r = data.drop q) ∧ d'.version = d.version ∧
      d'.type = d.type ∧ (d.type = .rpmonly → d.tgtHeaderLen ≠ 0) ∧
      Words d'.ints ∧ Words d'.exts ∧ d'.ints.length = pairRounds d'.intCount ∧
      d'.exts.length = pairRounds d'.extCount ∧ 112 ≤ d'.tgtLeadsig.length ∧ d'.sequence = d.sequence ∧
      d'.tgtHeaderLen = d.tgtHeaderLen) := by
  unfold rdPart3
  refine Post.bind (Q := fun _ r => r = data.drop p ∧ (d.type = .rpmonly → d.tgtHeaderLen ≠ 0))
    (Post.ite (fun _ => Post.fail) (fun h => Post.pure ⟨rfl, fun h1 h2 => h ⟨h2, h1⟩⟩)) ?_
  intro _ r ⟨g, hh⟩
  subst g
  have hL : Post rdLeadsig (data.drop p) (fun b r => (∃ q, r = data.drop q) ∧ 112 ≤ b.length) := by
    unfold rdLeadsig
    refine (rdBe32_safe data _).2.bind ?_
    intro v r ⟨h1, h2, h3⟩
    subst h2
    refine Post.ite (fun _ => Post.fail) (fun hm => ?_)
    exact (rdInto_safe _ _ data _ (Nat.le_refl _)).2.mono (fun b r h => ⟨⟨_, h.2.1⟩, by rw [h.2.2]; omega⟩)
  refine hL.bind ?_
  intro ls r ⟨⟨q, g⟩, hls⟩
  subst g
  refine (rdBe32_safe data _).2.bind ?_
  intro pf r ⟨_, g, _⟩
  subst g
  refine (rdBe32_safe data _).2.bind ?_
  intro ic r ⟨h1, g, _⟩
  subst g
  refine (rdBe32_safe data _).2.bind ?_
  intro ec r ⟨h2, g, _⟩
  subst g
  refine (rdPairs_post ic id id data _ (fun _ h => h) (fun _ h => h)).bind ?_
  intro is r ⟨k1, k2, g⟩
  subst g
  refine (rdPairs_post ec smDecode id data _ smDecode_lt (fun _ h => h)).bind ?_
  intro es r ⟨k3, k4, g⟩
  exact Post.pure ⟨⟨_, g⟩, rfl, rfl, hh, k2, k4, k1, k3, hls, rfl, rfl⟩

/-- Everything that acceptance by the reader guarantees. -/
theorem rdRest_full (d0 : Delta) (data : Bytes) :
    Post (rdRest d0) data (fun d _ => d.version = versionOf (word data 0) ∧
      word data 0 >>> 8 = 0x444C54 ∧ d.type = d0.type ∧
      (d0.type = .rpmonly → 3 ≤ d.version) ∧ Words d.ints ∧ Words d.exts ∧
      d.ints.length = pairRounds d.intCount ∧ d.exts.length = pairRounds d.extCount ∧
      d.intPtrs = none ∧ d.intBytes.length = d.intDataLen ∧ d.intDataLen ≤ data.length ∧
      d.extDataLen < 2^64 ∧
      intCheck d.intDataLen 0 d.ints = true ∧ extCheck d.extDataLen 0 d.exts = true ∧
      16 ≤ d.sequence.length ∧ (d0.type = .rpmonly → d.sequence.length = 16) ∧ 112 ≤ d.tgtLeadsig.length ∧
      (d0.type = .rpmonly → d.tgtHeaderLen ≠ 0)) := by
  unfold rdRest
  refine (rdPart1_post d0 data).bind ?_
  intro d1 r ⟨⟨p1, g⟩, a1, a2, a3, a4, a5, _⟩
  subst g
  refine (rdV2_post d1 data p1).bind ?_
  intro d2 r ⟨⟨p2, g⟩, b1, b2, b3⟩
  subst g
  refine (rdPart3_post d2 data p2).bind ?_
  intro d3 r ⟨⟨p3, g⟩, c1, c2, c0, c3, c4, c5, c6, c7, c8, c9⟩
  subst g
  refine (rdPart4_safe d3 data p3).2.bind ?_
  intro d4 r ⟨_, e1, e2, e3, e4, e5, e6, e7, e8, e9, e10, e11, e12, e13⟩
  refine (rdChecks_safe d4 r).2.mono ?_
  intro d5 r ⟨g, f1, f2⟩
  subst g
  have hv : d5.version = d1.version := by rw [e5, c1, b1]
  refine ⟨by rw [hv, a1], a2, by rw [e6, c2, b2, a3], fun h => by rw [hv]; exact (a4 h).1,
    e1 ▸ c3, e2 ▸ c4, by rw [e1, e3, c5], by rw [e2, e4, c6], e7, e8, e9, e10, f1, f2, by rw [e11, c8, b3]; exact a5,
    fun h => by rw [e11, c8, b3]; exact (a4 h).2, by rw [e12]; exact c7, fun h => by
      rw [e13, c9]; exact c0 (by rw [b2, a3]; exact h)⟩

theorem rdRest_post (d0 : Delta) (data : Bytes) :
    Post (rdRest d0) data (fun d _ => d.version = versionOf (word data 0) ∧
      word data 0 >>> 8 = 0x444C54 ∧ d.type = d0.type ∧
      (d0.type = .rpmonly → 3 ≤ d.version) ∧ Words d.ints ∧ Words d.exts ∧
      d.ints.length = pairRounds d.intCount ∧ d.exts.length = pairRounds d.extCount ∧
      d.intPtrs = none ∧ d.intBytes.length = d.intDataLen ∧ d.intDataLen ≤ data.length ∧
      d.extDataLen < 2^64 ∧
      intCheck d.intDataLen 0 d.ints = true ∧ extCheck d.extDataLen 0 d.exts = true) :=
  (rdRest_full d0 data).mono (fun _ _ ⟨h1, h2, h3, h4, h5, h6, h7, h8, h9, h10, h11, h12, h13, h14, _⟩ =>
    ⟨h1, h2, h3, h4, h5, h6, h7, h8, h9, h10, h11, h12, h13, h14⟩)

theorem intCheck_true (limit p : Nat) (cs : List (Nat × Nat)) (hl : limit < 2^63) (hp : p ≤ limit)
    (hw : ∀ c ∈ cs, c.2 < 2^32) (h : intCheck limit p cs = true) :
    p + (cs.map (·.2)).sum ≤ limit := by
  induction cs generalizing p with
  | nil => simpa using hp
  | cons c cs ih =>
    obtain ⟨w, n⟩ := c
    have hn : n < 2^32 := hw (w, n) (by simp)
    unfold intCheck at h
    simp only at h
    rw [Nat.mod_eq_of_lt (by omega : p + n < 2^64)] at h
    split at h
    · simp at h
    · have := ih (p + n) (by omega) (fun c hc => hw c (by simp [hc])) h
      simp only [List.map_cons, List.sum_cons]
      omega

/-- A successful `readDelta` went through `rdRest` on some data. -/
theorem readDelta_inv (dec : Decoder) (rpmR : Bytes → Out (Nat × Nat)) (file : Bytes) (d : Delta)
    (h : readDelta dec rpmR file = .ok d) :
    ∃ d0 s r, rdRest d0 s = .ok (d, r) ∧
      ((d0.type = .rpmonly ∧ file.take 8 = [100, 114, 112, 109, 68, 76, 84, 51]) ∨
       (d0.type = .standard ∧ file.take 4 = [0xED, 0xAB, 0xEE, 0xDB])) ∧
      ((∃ k, s = file.drop k) ∨ ∃ c z, s = dec c z) := by
  have hsys : ∀ f m rest, fileBe32 f = .ok (m, rest) →
      m < 2^32 ∧ f = createBe32 m ++ rest := by
    intro f m rest h
    unfold fileBe32 at h
    rw [Out.bind_eq_ok] at h
    obtain ⟨⟨b, r⟩, h1, h2⟩ := h
    unfold sysRead at h1
    split at h1
    · cases h1
    · split at h1
      · cases h1
      · cases h1
        match f with
        | [] => simp_all
        | [_] => simp_all
        | [_, _] => simp_all
        | [_, _, _] => simp_all
        | b0 :: b1 :: b2 :: b3 :: f =>
          simp only [List.take_succ_cons, List.take_zero, List.drop_succ_cons, List.drop_zero, be32At,
            Out.bind_ok, Out.ok.injEq, Prod.mk.injEq] at h2
          obtain ⟨rfl, rfl⟩ := h2
          refine ⟨parseBe32_lt _ _ _ _, ?_⟩
          have := C13_be32_unparse b0 b1 b2 b3
          rw [this]; rfl
  have hopen : ∀ z c s, openStream dec z = .ok (c, s) → s = z ∨ s = dec c z := by
    intro z c s h
    unfold openStream at h
    split at h
    · cases h
    · rw [Out.bind_eq_ok] at h
      obtain ⟨m, _, h⟩ := h
      split at h
      · cases h; exact .inl rfl
      · cases h; exact .inr rfl
  unfold readDelta at h
  rw [Out.bind_eq_ok] at h
  obtain ⟨⟨m, rest⟩, h1, h⟩ := h
  obtain ⟨hm, hf⟩ := hsys _ _ _ h1
  simp only at h
  split at h
  · rename_i hm1
    subst hm1
    rw [Out.bind_eq_ok] at h
    obtain ⟨⟨d1, r1⟩, h2, h⟩ := h
    simp only at h
    rw [Out.bind_eq_ok] at h
    obtain ⟨⟨c, s⟩, h3, h⟩ := h
    simp only at h
    rw [Out.bind_eq_ok] at h
    obtain ⟨⟨d2, r2⟩, h4, h⟩ := h
    cases h
    have hd1 : d1.type = .rpmonly ∧ rest.take 4 = [68, 76, 84, 51] ∧ ∃ k, r1 = rest.drop k := by
      unfold rdRpmonlyHead at h2
      rw [P.bind_run, Out.bind_eq_ok] at h2
      obtain ⟨⟨u, q1⟩, k1, h2⟩ := h2
      unfold fileVersion at k1
      rw [P.bind_run, Out.bind_eq_ok] at k1
      obtain ⟨⟨v, q⟩, k0, k1⟩ := k1
      simp only at k1
      split at k1
      · cases k1
      · rename_i hv
        have hv : v = 0x444C5433 := by simpa using hv
        cases k1
        subst hv
        obtain ⟨_, e0⟩ := hsys _ _ _ k0
        simp only at h2
        rw [P.bind_run, Out.bind_eq_ok] at h2
        obtain ⟨⟨n, q2⟩, k2, h2⟩ := h2
        obtain ⟨_, e2⟩ := hsys _ _ _ k2
        simp only at h2
        rw [P.bind_run, Out.bind_eq_ok] at h2
        obtain ⟨⟨nv, q3⟩, k3, h2⟩ := h2
        simp only at h2
        rw [P.bind_run, Out.bind_eq_ok] at h2
        obtain ⟨⟨an, q4⟩, k4, h2⟩ := h2
        obtain ⟨_, e4⟩ := hsys _ _ _ k4
        simp only at h2
        rw [P.bind_run, Out.bind_eq_ok] at h2
        obtain ⟨⟨ad, q5⟩, k5, h2⟩ := h2
        cases h2
        have hsr : ∀ cap n f b r, sysRead cap n f = .ok (b, r) → r = f.drop n := by
          intro cap n f b r h
          unfold sysRead at h
          split at h
          · cases h
          · split at h
            · cases h
            · cases h; rfl
        have e5 := hsr _ _ _ _ _ k5
        have e3 : q3 = q2.drop n := by
          unfold fileNevr at k3
          rw [P.bind_run, Out.bind_eq_ok] at k3
          obtain ⟨⟨x, y⟩, j1, j2⟩ := k3
          have := hsr _ _ _ _ _ j1
          simp only at j2
          split at j2
          · cases j2; exact this
          · cases j2
        refine ⟨rfl, ?_, ?_⟩
        · rw [e0]
          rw [show createBe32 0x444C5433 = [68, 76, 84, 51] by decide]
          rfl
        · have d4 : q4 = q3.drop 4 := by rw [e4]; rfl
          have d2 : q2 = q1.drop 4 := by rw [e2]; rfl
          have d0 : q1 = rest.drop 4 := by rw [e0]; rfl
          refine ⟨4 + (4 + (n + (4 + an))), ?_⟩
          rw [e5, d4, e3, d2, d0]
          simp only [List.drop_drop]
          congr 1
          omega
    obtain ⟨t1, t2, k, t3⟩ := hd1
    refine ⟨_, s, r2, h4, .inl ⟨t1, ?_⟩, ?_⟩
    · rw [hf, show createBe32 0x6472706D = [100, 114, 112, 109] by decide]
      simp only [List.cons_append, List.nil_append, List.take_succ_cons, t2]
    · rcases hopen _ _ _ h3 with e | e
      · left
        refine ⟨4 + k, ?_⟩
        rw [e, t3, hf, ← List.drop_drop]
        rfl
      · exact .inr ⟨c, _, e⟩
  · split at h
    · rename_i _ hm1
      subst hm1
      rw [Out.bind_eq_ok] at h
      obtain ⟨⟨sz, cp⟩, h2, h⟩ := h
      simp only at h
      rw [Out.bind_eq_ok] at h
      obtain ⟨⟨c, s⟩, h3, h⟩ := h
      simp only at h
      rw [Out.bind_eq_ok] at h
      obtain ⟨⟨d2, r2⟩, h4, h⟩ := h
      cases h
      refine ⟨_, s, r2, h4, .inr ⟨rfl, ?_⟩, ?_⟩
      · rw [hf, show createBe32 0xEDABEEDB = [0xED, 0xAB, 0xEE, 0xDB] by decide]
        rfl
      · rcases hopen _ _ _ h3 with e | e
        · exact .inl ⟨sz, e⟩
        · exact .inr ⟨c, _, e⟩
    · cases h

end Drpm
