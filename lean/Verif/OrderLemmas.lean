import Verif.OrderSpec
import Verif.SeqLemmas
/-! Helper lemmas: the decoder of file orders against the format. -/

namespace Drpm

theorem Out.regroup {α β γ : Type} (x : Out α) (f : α → Out β) (g : β → Out γ) :
    ((x >>= f) >>= g) = (x >>= fun a => f a >>= g) := by
  cases x <;> rfl

theorem halfBytes_nibbles (bs : Bytes) : nibbles bs = halfBytes bs := by
  unfold nibbles halfBytes
  rw [List.flatMap_def]
  congr 1
  refine List.map_congr_left (fun b _ => ?_)
  rw [Nat.shiftRight_eq_div_pow, show (0x0F : Nat) = 2^4 - 1 from rfl, Nat.and_two_pow_sub_one_eq_mod]

theorem halfBytes_lt (bs : Bytes) : ∀ d ∈ halfBytes bs, d < 16 := by
  intro d hd
  unfold halfBytes at hd
  rw [List.mem_flatMap] at hd
  obtain ⟨b, _, hb⟩ := hd
  have := b.toNat_lt
  simp only [List.mem_cons, List.not_mem_nil, or_false] at hb
  rcases hb with rfl | rfl <;> omega

/-- What a complete number does, src/drpm_apply.c:130-156. -/
def numStep (fc : Nat) (s : DecSt) (number : Nat) : Out DecSt :=
  if s.jump then .ok { s with pos := number, toggle := true, jump := false }
  else if number = 0 then .ok { s with jump := true }
  else if !s.toggle then .ok { s with pos := (s.pos + number) % 2^64, toggle := true }
  else do
    let (ps, pos) ← pushRun fc number s.pos s.positions
    .ok { s with positions := ps, pos := pos, toggle := false }

theorem digitsValue_append (a b : List Nat) : digitsValue (a ++ b) = digitsValue a + 8 ^ a.length * digitsValue b := by
  induction a with
  | nil => simp [digitsValue]
  | cons d a ih =>
    rw [List.cons_append, digitsValue, digitsValue, ih, List.length_cons, Nat.pow_succ, Nat.mul_add, ← Nat.mul_assoc,
      Nat.mul_comm (8 ^ a.length) 8]
    omega

theorem digitsValue_lt : ∀ (a : List Nat), (∀ d ∈ a, d < 8) → digitsValue a < 8 ^ a.length := by
  intro a
  induction a with
  | nil => intro _; simp [digitsValue]
  | cons d a ih =>
    intro h
    have h1 := ih (fun x hx => h x (by simp [hx]))
    have h2 := h d (by simp)
    rw [digitsValue, List.length_cons, Nat.pow_succ]
    omega

theorem pow8 (n : Nat) : 8 ^ n = 2 ^ (3 * n) := by rw [Nat.pow_mul]

/-- One more digit. -/
theorem add_digit {cur : List Nat} {d : Nat} (hc : ∀ x ∈ cur, x < 8) (hl : cur.length ≤ 21) :
    shl64 d (3 * cur.length) = .ok ((d <<< (3 * cur.length)) % 2^64) ∧
    (digitsValue cur % 2^64) ||| ((d <<< (3 * cur.length)) % 2^64) = digitsValue (cur ++ [d]) % 2^64 := by
  refine ⟨by unfold shl64; rw [if_neg (by omega)], ?_⟩
  have hv := digitsValue_lt cur hc
  rw [pow8] at hv
  generalize hs : 3 * cur.length = s at hv
  have hs63 : s ≤ 63 := by omega
  have hp : (2:Nat)^64 = 2^s * 2^(64 - s) := by rw [← Nat.pow_add]; congr 1; omega
  have hlt : digitsValue cur < 2^64 := Nat.lt_of_lt_of_le hv (Nat.pow_le_pow_right (by omega) (by omega))
  have e : digitsValue (cur ++ [d]) = 2^s * d + digitsValue cur := by
    rw [digitsValue_append, pow8, hs]
    simp only [digitsValue, Nat.mul_zero, Nat.add_zero]
    exact Nat.add_comm _ _
  rw [Nat.mod_eq_of_lt hlt, e, Nat.shiftLeft_eq, Nat.mul_comm d]
  rw [hp, Nat.mul_mod_mul_left, Nat.or_comm, ← Nat.two_pow_add_eq_or_of_lt hv, ← hp]
  have hmod : (2^s * d + digitsValue cur) % 2^64 = 2^s * (d % 2^(64 - s)) + digitsValue cur := by
    have h1 : 2^s * d = 2^64 * (d / 2^(64 - s)) + 2^s * (d % 2^(64 - s)) := by
      rw [hp, Nat.mul_assoc, ← Nat.mul_add, Nat.div_add_mod]
    have h2 : 2^s * (d % 2^(64 - s)) + digitsValue cur < 2^64 := by
      have : d % 2^(64 - s) + 1 ≤ 2^(64 - s) := Nat.mod_lt _ (Nat.two_pow_pos _)
      have := Nat.mul_le_mul_left (2^s) this
      rw [← hp, Nat.mul_add] at this
      omega
    rw [h1, Nat.add_assoc, Nat.mul_add_mod, Nat.mod_eq_of_lt h2]
  rw [hmod]

/-- The half bytes of the rest of an order, from a state in the middle of a number. -/
theorem foldl_split (fc : Nat) : ∀ (ds cur : List Nat) (s : DecSt), (∀ d ∈ ds, d < 16) → (∀ d ∈ cur, d < 8) →
    (∀ g ∈ (splitDigits cur ds).1, g.length ≤ 22) → (splitDigits cur ds).2.length ≤ 22 →
    s.shift = 3 * cur.length → s.num = digitsValue cur % 2^64 →
    ds.foldlM (decStep fc) s =
      (((splitDigits cur ds).1.map fun g => digitsValue g % 2^64).foldlM (numStep fc) { s with num := 0, shift := 0 } >>= fun t =>
        .ok { t with num := digitsValue (splitDigits cur ds).2 % 2^64, shift := 3 * (splitDigits cur ds).2.length }) := by
  intro ds
  induction ds with
  | nil =>
    intro cur s _ _ _ _ hsh hnum
    rw [splitDigits]
    simp only [List.map_nil, List.foldlM_nil]
    show Out.ok s = .ok { s with num := digitsValue cur % 2^64, shift := 3 * cur.length }
    rw [← hsh, ← hnum]
  | cons d ds ih =>
    intro cur s hds hcur hg hr hsh hnum
    have hd : d < 16 := hds d (by simp)
    rw [List.foldlM_cons]
    rw [splitDigits] at hg hr ⊢
    by_cases h8 : d < 8
    · rw [if_pos h8] at hg hr ⊢
      have hlen : cur.length ≤ 21 := by
        have := hg (cur ++ [d]) (by simp)
        rw [List.length_append, List.length_singleton] at this
        omega
      obtain ⟨e1, e2⟩ := add_digit (d := d) hcur hlen
      have hstep : decStep fc s d = numStep fc { s with num := 0, shift := 0 } (digitsValue (cur ++ [d]) % 2^64) := by
        unfold decStep
        rw [if_neg (by simp only [ne_eq, Decidable.not_not]; exact and8_of_lt d h8), hsh, e1, Out.bind_ok, hnum, e2]
        rfl
      rw [hstep, List.map_cons, List.foldlM_cons, Out.regroup]
      have key : ∀ t : DecSt, numStep fc { s with num := 0, shift := 0 } (digitsValue (cur ++ [d]) % 2^64) = .ok t →
          t.num = 0 ∧ t.shift = 0 := by
        intro t ht
        unfold numStep at ht
        split at ht
        · cases ht; exact ⟨rfl, rfl⟩
        · split at ht
          · cases ht; exact ⟨rfl, rfl⟩
          · split at ht
            · cases ht; exact ⟨rfl, rfl⟩
            · obtain ⟨x, _, ht⟩ := Out.bind_eq_ok.mp ht
              cases ht
              exact ⟨rfl, rfl⟩
      cases hn : numStep fc { s with num := 0, shift := 0 } (digitsValue (cur ++ [d]) % 2^64) with
      | ok t =>
        obtain ⟨k1, k2⟩ := key t hn
        rw [Out.bind_ok, Out.bind_ok]
        have := ih [] t (fun x hx => hds x (by simp [hx])) (by simp) (fun g hg' => hg g (by simp [hg'])) hr (by simp [k2])
          (by rw [k1]; rfl)
        rw [this]
        have et : ({ t with num := 0, shift := 0 } : DecSt) = t := by
          cases t
          simp only at k1 k2
          rw [k1, k2]
        rw [et]
      | err e => rfl
      | ub => rfl
      | loop => rfl
    · rw [if_neg h8] at hg hr ⊢
      have hlen : cur.length ≤ 21 := by
        have hsub : ∀ (ds cur : List Nat), (∀ g ∈ (splitDigits cur ds).1, g.length ≤ 22) → (splitDigits cur ds).2.length ≤ 22 →
            cur.length ≤ 22 := by
          intro ds
          induction ds with
          | nil => intro cur _ h; exact h
          | cons d ds ih =>
            intro cur h1 h2
            rw [splitDigits] at h1 h2
            by_cases h : d < 8
            · rw [if_pos h] at h1
              have := h1 (cur ++ [d]) (by simp)
              rw [List.length_append] at this
              omega
            · rw [if_neg h] at h1 h2
              have := ih _ h1 h2
              rw [List.length_append] at this
              omega
        have := hsub ds _ hg hr
        rw [List.length_append, List.length_singleton] at this
        omega
      obtain ⟨e1, e2⟩ := add_digit (d := d - 8) hcur hlen
      have hd8 : d = (d - 8) ||| 8 := by
        have : ∀ x : Fin 16, 8 ≤ x.val → x.val = (x.val - 8) ||| 8 := by decide
        exact this ⟨d, hd⟩ (by simp only; omega)
      obtain ⟨o1, o2⟩ := or8_facts (d - 8) (by omega)
      rw [← hd8] at o1 o2
      have hstep : decStep fc s d = .ok { s with num := digitsValue (cur ++ [d - 8]) % 2^64, shift := s.shift + 3 } := by
        unfold decStep
        rw [if_pos (by simpa using o1)]
        have : d ^^^ (1 <<< 3) = d - 8 := o2
        rw [this, hsh, e1, Out.bind_ok, hnum, e2]
      rw [hstep, Out.bind_ok]
      have := ih (cur ++ [d - 8]) { s with num := digitsValue (cur ++ [d - 8]) % 2^64, shift := s.shift + 3 }
        (fun x hx => hds x (by simp [hx])) (by
          intro x hx
          rcases List.mem_append.mp hx with h | h
          · exact hcur x h
          · simp only [List.mem_singleton] at h; omega) hg hr (by
          rw [List.length_append, List.length_singleton]; simp only; omega) rfl
      rw [this]

/-- Storing runs, one after the other. -/
def storeRuns (fc : Nat) : List Nat → List (Nat × Nat) → Out (List Nat)
  | ps, [] => .ok ps
  | ps, r :: rs => do
    let x ← pushRun fc r.2 r.1 ps
    storeRuns fc x.1 rs

def nextOf (s : DecSt) : Next := if s.jump then .place else if s.toggle then .run else .gap

theorem pushRun_pos {fc : Nat} : ∀ {n pos : Nat} {ps : List Nat} {x : List Nat × Nat}, pushRun fc n pos ps = .ok x → x.2 = pos + n := by
  intro n
  induction n with
  | zero => intro pos ps x h; cases h; rfl
  | succ n ih =>
    intro pos ps x h
    unfold pushRun at h
    split at h
    · cases h
    · split at h
      · cases h
      · rw [ih h]; omega

theorem foldl_runs (fc : Nat) : ∀ (ns : List Nat) (s : DecSt),
    (ns.foldlM (numStep fc) s >>= fun t => .ok t.positions) = storeRuns fc s.positions (orderRuns (nextOf s) s.pos ns) := by
  intro ns
  induction ns with
  | nil =>
    intro s
    have : orderRuns (nextOf s) s.pos [] = [] := by cases nextOf s <;> rfl
    rw [this]
    rfl
  | cons n ns ih =>
    intro s
    rw [List.foldlM_cons, Out.regroup]
    have hstep : numStep fc s n = (if s.jump then .ok { s with pos := n, toggle := true, jump := false }
      else if n = 0 then .ok { s with jump := true }
      else if !s.toggle then .ok { s with pos := (s.pos + n) % 2^64, toggle := true }
      else pushRun fc n s.pos s.positions >>= fun x => .ok { s with positions := x.1, pos := x.2, toggle := false }) := rfl
    rw [hstep]
    by_cases hj : s.jump
    · rw [if_pos hj, Out.bind_ok, ih]
      have e0 : nextOf s = .place := by unfold nextOf; rw [if_pos hj]
      rw [e0]
      rfl
    · rw [if_neg hj]
      by_cases h0 : n = 0
      · subst h0
        rw [if_pos rfl, Out.bind_ok, ih]
        have e1 : nextOf { s with jump := true } = .place := rfl
        rw [e1]
        by_cases ht : s.toggle
        · have e0 : nextOf s = .run := by unfold nextOf; rw [if_neg hj, if_pos ht]
          rw [e0, orderRuns, if_pos rfl]
        · have e0 : nextOf s = .gap := by unfold nextOf; rw [if_neg hj, if_neg ht]
          rw [e0, orderRuns, if_pos rfl]
      · rw [if_neg h0]
        by_cases ht : s.toggle
        · have e0 : nextOf s = .run := by unfold nextOf; rw [if_neg hj, if_pos ht]
          rw [if_neg (by simp [ht]), e0, orderRuns, if_neg h0, storeRuns, Out.regroup]
          cases hp : pushRun fc n s.pos s.positions with
          | ok x =>
            rw [Out.bind_ok, Out.bind_ok, Out.bind_ok, ih]
            have e1 : nextOf { s with positions := x.1, pos := x.2, toggle := false } = .gap := by
              unfold nextOf
              simp [hj]
            rw [e1]
            simp only
            rw [pushRun_pos hp]
          | err e => rfl
          | ub => rfl
          | loop => rfl
        · have e0 : nextOf s = .gap := by unfold nextOf; rw [if_neg hj, if_neg ht]
          rw [if_pos (by simp [ht]), e0, orderRuns, if_neg h0, Out.bind_ok, ih]
          have e1 : nextOf { s with pos := (s.pos + n) % 2^64, toggle := true } = .run := by
            unfold nextOf
            simp [hj]
          rw [e1]

/-- The decoder, in terms of the format. -/
theorem decodeSeq_runs (fc : Nat) (bs : Bytes) (h : ShortNumbers bs) :
    decodeSeq fc bs = (storeRuns fc [] (runsOf bs) >>= fun ps => if orderLeft bs ≠ [] then .err .format else .ok ps) := by
  have := foldl_split fc (halfBytes bs) [] DecSt.init (halfBytes_lt bs) (by simp) h.1 h.2 rfl rfl
  unfold decodeSeq
  rw [halfBytes_nibbles, this, Out.regroup]
  have e : ({ DecSt.init with num := 0, shift := 0 } : DecSt) = DecSt.init := rfl
  rw [e]
  have hr := foldl_runs fc ((orderDigits bs).map fun g => digitsValue g % 2^64) DecSt.init
  unfold runsOf
  have e2 : orderRuns (nextOf DecSt.init) DecSt.init.pos = orderRuns .run 0 := rfl
  have e3 : DecSt.init.positions = [] := rfl
  rw [e2, e3] at hr
  rw [← hr, Out.regroup]
  refine congrArg _ (funext fun t => ?_)
  rw [Out.bind_ok, Out.bind_ok]
  simp only
  have : (3 * (splitDigits [] (halfBytes bs)).2.length ≠ 0) ↔ (orderLeft bs ≠ []) := by
    unfold orderLeft
    rw [ne_eq, ne_eq, ← List.length_eq_zero_iff]
    omega
  by_cases hl : orderLeft bs ≠ []
  · rw [if_pos hl, if_pos (this.mpr hl)]
  · rw [if_neg hl, if_neg (fun h => hl (this.mp h))]

/-- One run: stored, refused or stored outside. -/
theorem pushRun_exact (fc : Nat) : ∀ (n pos : Nat) (ps : List Nat), 0 < n → ps.length ≤ fc →
    pushRun fc n pos ps = (if ps.length + n ≤ fc ∧ pos + n ≤ fc + 1 then .ok (ps ++ List.range' pos n, pos + n)
      else if pos ≤ ps.length ∧ fc < ps.length + n then .ub else .err .format) := by
  intro n
  induction n with
  | zero => intro pos ps h; omega
  | succ n ih =>
    intro pos ps _ hl
    rw [pushRun]
    by_cases h1 : pos > fc
    · rw [if_pos (Or.inr h1), if_neg (by omega), if_neg (by omega)]
    · rw [if_neg (by omega)]
      by_cases h2 : ps.length ≥ fc
      · rw [if_pos h2, if_neg (by omega), if_pos (by omega)]
      · rw [if_neg h2]
        cases n with
        | zero =>
          rw [pushRun, if_pos (by omega)]
          simp
        | succ n =>
          have hl' : (ps ++ [pos]).length = ps.length + 1 := by simp
          rw [ih (pos + 1) (ps ++ [pos]) (by omega) (by omega), hl']
          by_cases c1 : ps.length + 1 + (n + 1) ≤ fc ∧ pos + 1 + (n + 1) ≤ fc + 1
          · rw [if_pos c1, if_pos (by omega), List.append_assoc]
            have e1 : [pos] ++ List.range' (pos + 1) (n + 1) = List.range' pos (n + 1 + 1) := by
              rw [List.range'_succ (s := pos) (n := n + 1)]; rfl
            rw [e1, show pos + 1 + (n + 1) = pos + (n + 1 + 1) by omega]
          · have c1' : ¬ (ps.length + (n + 1 + 1) ≤ fc ∧ pos + (n + 1 + 1) ≤ fc + 1) := by omega
            rw [if_neg c1, if_neg c1']
            by_cases c2 : pos + 1 ≤ ps.length + 1 ∧ fc < ps.length + 1 + (n + 1)
            · rw [if_pos c2, if_pos (by omega)]
            · rw [if_neg c2, if_neg (by omega)]

theorem filesBefore_succ (r : Nat × Nat) (rs : List (Nat × Nat)) (k : Nat) :
    filesBefore (r :: rs) (k + 1) = r.2 + filesBefore rs k := by
  unfold filesBefore
  simp

theorem filesOf_cons (r : Nat × Nat) (rs : List (Nat × Nat)) : filesOf (r :: rs) = List.range' r.1 r.2 ++ filesOf rs := rfl

theorem orderRuns_pos : ∀ (ns : List Nat) (e : Next) (pos : Nat), ∀ r ∈ orderRuns e pos ns, 0 < r.2 := by
  intro ns
  induction ns with
  | nil => intro e pos r h; cases e <;> cases h
  | cons n ns ih =>
    intro e pos r h
    cases e with
    | place => exact ih _ _ r h
    | run =>
      rw [orderRuns] at h
      split at h
      · exact ih _ _ r h
      · rcases List.mem_cons.mp h with rfl | h
        · simp only; omega
        · exact ih _ _ r h
    | gap =>
      rw [orderRuns] at h
      split at h
      · exact ih _ _ r h
      · exact ih _ _ r h

theorem storeRuns_exact (fc : Nat) : ∀ (rs : List (Nat × Nat)) (ps : List Nat), (∀ r ∈ rs, 0 < r.2) → ps.length ≤ fc →
    (∀ qs, storeRuns fc ps rs = .ok qs ↔ qs = ps ++ filesOf rs ∧
      ∀ (k : Nat) r, rs[k]? = some r → ps.length + filesBefore rs k + r.2 ≤ fc ∧ r.1 + r.2 ≤ fc + 1) ∧
    (storeRuns fc ps rs = .ub ↔ ∃ (k : Nat) (r : Nat × Nat), rs[k]? = some r ∧
      (∀ (j : Nat) q, j < k → rs[j]? = some q → q.1 + q.2 ≤ fc + 1) ∧
      ps.length + filesBefore rs k ≤ fc ∧ r.1 ≤ ps.length + filesBefore rs k ∧ fc < ps.length + filesBefore rs k + r.2) ∧
    storeRuns fc ps rs ≠ .loop := by
  intro rs
  induction rs with
  | nil =>
    intro ps _ hl
    refine ⟨fun qs => ?_, ?_, by simp [storeRuns]⟩
    · simp only [storeRuns, filesOf, List.flatMap_nil, List.append_nil, Out.ok.injEq]
      exact ⟨fun h => ⟨h.symm, fun k r h => by simp at h⟩, fun h => h.1.symm⟩
    · simp [storeRuns]
  | cons r rs ih =>
    intro ps hpos hl
    have hr : 0 < r.2 := hpos r (by simp)
    have hb0 : filesBefore (r :: rs) 0 = 0 := by simp [filesBefore]
    rw [storeRuns, pushRun_exact fc r.2 r.1 ps hr hl]
    by_cases c1 : ps.length + r.2 ≤ fc ∧ r.1 + r.2 ≤ fc + 1
    · rw [if_pos c1, Out.bind_ok]
      have hl' : (ps ++ List.range' r.1 r.2).length = ps.length + r.2 := by simp
      obtain ⟨i1, i2, i3⟩ := ih (ps ++ List.range' r.1 r.2) (fun q hq => hpos q (by simp [hq])) (by omega)
      refine ⟨fun qs => ?_, ?_, i3⟩
      · rw [i1 qs, filesOf_cons, List.append_assoc, hl']
        refine and_congr Iff.rfl ⟨fun h k q hk => ?_, fun h k q hk => ?_⟩
        · cases k with
          | zero =>
            cases hk
            rw [hb0]; omega
          | succ k =>
            rw [filesBefore_succ]
            have := h k q hk
            omega
        · have := h (k + 1) q hk
          rw [filesBefore_succ] at this
          omega
      · rw [i2, hl']
        constructor
        · rintro ⟨k, q, h1, h2, h3, h4, h5⟩
          refine ⟨k + 1, q, h1, ?_, ?_, ?_, ?_⟩
          · intro j q' hj hq'
            cases j with
            | zero => cases hq'; omega
            | succ j => exact h2 j q' (by omega) hq'
          all_goals rw [filesBefore_succ]; omega
        · rintro ⟨k, q, h1, h2, h3, h4, h5⟩
          cases k with
          | zero =>
            cases h1
            rw [hb0] at h5
            omega
          | succ k =>
            rw [filesBefore_succ] at h3 h4 h5
            exact ⟨k, q, h1, fun j q' hj hq' => h2 (j + 1) q' (by omega) hq', by omega, by omega, by omega⟩
    · rw [if_neg c1]
      by_cases c2 : r.1 ≤ ps.length ∧ fc < ps.length + r.2
      · rw [if_pos c2]
        refine ⟨fun qs => ⟨(fun h => by cases h), fun h => ?_⟩, ⟨fun _ => ?_, fun _ => rfl⟩, (fun h => by cases h)⟩
        · have := h.2 0 r rfl
          rw [hb0] at this
          omega
        · exact ⟨0, r, rfl, fun j q hj => by omega, by rw [hb0]; omega, by rw [hb0]; omega, by rw [hb0]; omega⟩
      · rw [if_neg c2]
        refine ⟨fun qs => ⟨(fun h => by cases h), fun h => ?_⟩, ⟨(fun h => by cases h), ?_⟩, (fun h => by cases h)⟩
        · have := h.2 0 r rfl
          rw [hb0] at this
          omega
        · rintro ⟨k, q, h1, h2, h3, h4, h5⟩
          exfalso
          cases k with
          | zero =>
            cases h1
            rw [hb0] at h4 h5
            omega
          | succ k =>
            rw [filesBefore_succ] at h3
            have := h2 0 r (by omega) rfl
            omega

end Drpm
