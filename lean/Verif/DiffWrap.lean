import Verif.SearchLemmas
import Verif.DiffLemmas
/-!
# The main loop of `make_diff` in `size_t` arithmetic: src/drpm_diff.c

`Verif/Diff.lean` writes the positions and lengths of `make_diff` as natural numbers. Here the same
statements are written with the arithmetic of a 64-bit `size_t`, in which every sum, difference and
product is taken modulo 2^64, so that a difference below zero becomes a huge number.
-/

namespace Drpm

/-- Addition of two `size_t`. -/
def add64 (a b : Nat) : Nat := (a + b) % 2^64

/-- Subtraction of two `size_t`. -/
def sub64 (a b : Nat) : Nat := (a + 2^64 - b) % 2^64

/-- Multiplication of two `size_t`. -/
def mul64 (a b : Nat) : Nat := a * b % 2^64

/-- src/drpm_diff.c:143-155. The loop bound `i < max_len` is `n` iterations left. -/
def fwdAddW (old new : Bytes) (op np : Nat) : Nat → Nat → Nat → Nat → Nat → Out Nat
  | 0, _, _, _, lf => .ok lf
  | n + 1, i, count, best, lf => do
    let a ← rd old (add64 op i)
    let b ← rd new (add64 np i)
    if a = b then
      if mul64 2 (add64 count 1) ≥ add64 best (add64 i 1) then
        fwdAddW old new op np n (add64 i 1) (add64 count 1)
          (sub64 (mul64 2 (add64 count 1)) (add64 i 1)) (add64 i 1)
      else fwdAddW old new op np n (add64 i 1) (add64 count 1) best lf
    else fwdAddW old new op np n (add64 i 1) count best lf

/-- src/drpm_diff.c:157-162. -/
def fwdExactW (old new : Bytes) (op np : Nat) : Nat → Nat → Out Nat
  | 0, i => .ok i
  | n + 1, i => do
    let a ← rd old (add64 op i)
    let b ← rd new (add64 np i)
    if a ≠ b then .ok i else fwdExactW old new op np n (add64 i 1)

/-- src/drpm_diff.c:166-176. -/
def backAddW (old new : Bytes) (op np : Nat) : Nat → Nat → Nat → Nat → Nat → Out Nat
  | 0, _, _, _, lb => .ok lb
  | n + 1, i, count, best, lb => do
    let a ← rd old (sub64 op i)
    let b ← rd new (sub64 np i)
    if a = b then
      if mul64 2 (add64 count 1) ≥ add64 best i then
        backAddW old new op np n (add64 i 1) (add64 count 1) (sub64 (mul64 2 (add64 count 1)) i) i
      else backAddW old new op np n (add64 i 1) (add64 count 1) best lb
    else backAddW old new op np n (add64 i 1) count best lb

/-- src/drpm_diff.c:187-197. The indices are evaluated from left to right, as written there. -/
def splitLoopW (old new : Bytes) (op np oldPos newPos lf lb ov : Nat) :
    Nat → Nat → Nat → Nat → Nat → Nat → Out Nat
  | 0, _, _, _, _, split => .ok split
  | n + 1, i, cf, cb, best, split => do
    let a ← rd old (add64 (sub64 (add64 op lf) ov) i)
    let b ← rd new (add64 (sub64 (add64 np lf) ov) i)
    let cf := if a = b then add64 cf 1 else cf
    let c ← rd old (add64 (sub64 oldPos lb) i)
    let d ← rd new (add64 (sub64 newPos lb) i)
    let cb := if c = d then add64 cb 1 else cb
    if cf > cb ∧ sub64 cf cb > best then
      splitLoopW old new op np oldPos newPos lf lb ov n (add64 i 1) cf cb (sub64 cf cb) (add64 i 1)
    else splitLoopW old new op np oldPos newPos lf lb ov n (add64 i 1) cf cb best split

/-- src/drpm_diff.c:141-163. -/
def lenForwardW (old new : Bytes) (addblk : Bool) (op np newPos : Nat) : Out Nat :=
  let maxLen := min (sub64 old.length op) (sub64 newPos np)
  if addblk then fwdAddW old new op np maxLen 0 0 0 0 else fwdExactW old new op np maxLen 0

/-- src/drpm_diff.c:165-181. -/
def lenBackW (old new : Bytes) (addblk : Bool) (oldPos newPos np : Nat) : Out Nat :=
  if addblk ∧ newPos < new.length then
    backAddW old new oldPos newPos (min oldPos (sub64 newPos np)) 1 0 0 0
  else .ok 0

/-- src/drpm_diff.c:183-200. -/
def splitOverlapW (old new : Bytes) (op np oldPos newPos lf lb : Nat) : Out (Nat × Nat) :=
  if add64 np lf > sub64 newPos lb then do
    let ov := sub64 (add64 np lf) (sub64 newPos lb)
    let split ← splitLoopW old new op np oldPos newPos lf lb ov ov 0 0 0 0 0
    .ok (sub64 lf (sub64 ov split), sub64 lb split)
  else .ok (lf, lb)

/-- src/drpm_diff.c:233-244. -/
def addBlockWritesW (old new : Bytes) : Nat → Nat → Nat → Nat → Out (List Bytes)
  | 0, _, _, _ => .ok []
  | fuel + 1, op, np, len =>
    if len > 0 then do
      let w := min len 4096
      let a ← rdBlk old op w
      let b ← rdBlk new np w
      let rest ← addBlockWritesW old new fuel (add64 op w) (add64 np w) (sub64 len w)
      .ok (List.zipWith (fun n o => n - o) b a :: rest)
    else .ok []

/-- src/drpm_diff.c:135-247, one pass of the main loop. -/
def diffStepW (search : Nat → Nat → Out (Nat × Nat × Nat)) (old new : Bytes) (addblk : Bool)
    (s : DiffSt) : Out (DiffCopy × List Bytes × DiffSt) := do
  let lastOff := if addblk then sub64 s.oldPrev s.newPrev else old.length
  let (newPos, oldPos, len) ← search lastOff (add64 s.newPos s.len)
  let lf ← lenForwardW old new addblk s.oldPrev s.newPrev newPos
  let lb ← lenBackW old new addblk oldPos newPos s.newPrev
  let (lf, lb) ← splitOverlapW old new s.oldPrev s.newPrev oldPos newPos lf lb
  let copy : DiffCopy :=
    { newOff := add64 s.newPrev lf, newLen := sub64 (sub64 newPos lb) (add64 s.newPrev lf),
      oldOff := s.oldPrev, oldLen := lf }
  let adds ← if addblk then addBlockWritesW old new lf s.oldPrev s.newPrev lf else .ok []
  .ok (copy, adds, { oldPos := oldPos, newPos := newPos, oldPrev := sub64 oldPos lb,
                     newPrev := sub64 newPos lb, len := len })

/-- src/drpm_diff.c:134-248. -/
def diffLoopW (search : Nat → Nat → Out (Nat × Nat × Nat)) (old new : Bytes) (addblk : Bool) :
    Nat → DiffSt → Out (List DiffCopy × List Bytes)
  | 0, _ => .loop
  | fuel + 1, s =>
    if s.newPrev < new.length then do
      let (c, adds, s) ← diffStepW search old new addblk s
      let (cs, rest) ← diffLoopW search old new addblk fuel s
      .ok (c :: cs, adds ++ rest)
    else .ok ([], [])

/-- src/drpm_diff.c:77-280 `make_diff`, its main loop in `size_t` arithmetic. -/
def makeDiffW (old new : Bytes) (addblk : Bool) : Out Diff := do
  let h ← hashCreate old
  let (regions, adds) ← diffLoopW (hashSearch h old new) old new addblk (diffFuel new.length)
    ⟨0, 0, 0, 0, 0⟩
  let (ext, int) ← createDiffCopies regions
  let data ← intDataLoop new int regions 0 0
  .ok { ext := ext, int := int, intData := data, addWrites := adds, regions := regions }

/-! ## Helper lemmas -/

theorem add64_eq {a b : Nat} (h : a + b < 2^64) : add64 a b = a + b := Nat.mod_eq_of_lt h

theorem sub64_eq {a b : Nat} (h : b ≤ a) (ha : a < 2^64) : sub64 a b = a - b := by
  unfold sub64; omega

theorem mul64_two {a : Nat} (h : a < 2^63) : mul64 2 a = 2 * a :=
  Nat.mod_eq_of_lt (by omega)

theorem fwdAddW_eq (old new : Bytes) (op np n i count best lf : Nat)
    (ho : op + i + n ≤ old.length) (hn : np + i + n ≤ new.length) (hc : count ≤ i) (hb : best ≤ i)
    (hol : old.length < 2^63) (hnl : new.length < 2^63) :
    fwdAddW old new op np n i count best lf = fwdAdd old new op np n i count best lf := by
  induction n generalizing i count best lf with
  | zero => rfl
  | succ n ih =>
    unfold fwdAddW fwdAdd
    rw [add64_eq (a := op) (b := i) (by omega), add64_eq (a := np) (b := i) (by omega),
      rd_ok (by omega : op + i < old.length), rd_ok (by omega : np + i < new.length)]
    simp only [Out.bind_ok]
    rw [add64_eq (a := i) (b := 1) (by omega), add64_eq (a := count) (b := 1) (by omega),
      add64_eq (a := best) (b := i + 1) (by omega), mul64_two (by omega)]
    split
    · split
      · rw [sub64_eq (by omega) (by omega)]
        exact ih (i + 1) (count + 1) (2 * (count + 1) - (i + 1)) (i + 1) (by omega) (by omega)
          (by omega) (by omega)
      · exact ih (i + 1) (count + 1) best lf (by omega) (by omega) (by omega) (by omega)
    · exact ih (i + 1) count best lf (by omega) (by omega) (by omega) (by omega)

theorem fwdExactW_eq (old new : Bytes) (op np n i : Nat)
    (ho : op + i + n ≤ old.length) (hn : np + i + n ≤ new.length)
    (hol : old.length < 2^63) (hnl : new.length < 2^63) :
    fwdExactW old new op np n i = fwdExact old new op np n i := by
  induction n generalizing i with
  | zero => rfl
  | succ n ih =>
    unfold fwdExactW fwdExact
    rw [add64_eq (a := op) (b := i) (by omega), add64_eq (a := np) (b := i) (by omega),
      rd_ok (by omega : op + i < old.length), rd_ok (by omega : np + i < new.length)]
    simp only [Out.bind_ok]
    rw [add64_eq (a := i) (b := 1) (by omega), ih (i + 1) (by omega) (by omega)]

theorem backAddW_eq (old new : Bytes) (op np n i count best lb : Nat) (hi : 1 ≤ i)
    (ho : i + n ≤ op + 1) (hn : i + n ≤ np + 1) (hol : op ≤ old.length) (hnl : np ≤ new.length)
    (hc : count < i) (hb : best < i) (hol' : old.length < 2^63) (hnl' : new.length < 2^63) :
    backAddW old new op np n i count best lb = backAdd old new op np n i count best lb := by
  induction n generalizing i count best lb with
  | zero => rfl
  | succ n ih =>
    unfold backAddW backAdd
    rw [sub64_eq (a := op) (b := i) (by omega) (by omega),
      sub64_eq (a := np) (b := i) (by omega) (by omega),
      rd_ok (by omega : op - i < old.length), rd_ok (by omega : np - i < new.length)]
    simp only [Out.bind_ok]
    rw [add64_eq (a := i) (b := 1) (by omega), add64_eq (a := count) (b := 1) (by omega),
      add64_eq (a := best) (b := i) (by omega), mul64_two (by omega)]
    split
    · split
      · rw [sub64_eq (by omega) (by omega)]
        exact ih (i + 1) (count + 1) (2 * (count + 1) - i) i (by omega) (by omega) (by omega)
          (by omega) (by omega)
      · exact ih (i + 1) (count + 1) best lb (by omega) (by omega) (by omega) (by omega) (by omega)
    · exact ih (i + 1) count best lb (by omega) (by omega) (by omega) (by omega) (by omega)

theorem splitLoopW_eq (old new : Bytes) (op np oldPos newPos lf lb ov n i cf cb best split : Nat)
    (h1 : op + lf - ov + i + n ≤ old.length) (h2 : np + lf - ov + i + n ≤ new.length)
    (h3 : oldPos - lb + i + n ≤ old.length) (h4 : newPos - lb + i + n ≤ new.length)
    (g1 : ov ≤ lf) (g2 : lb ≤ oldPos) (g3 : lb ≤ newPos) (g4 : op + lf ≤ old.length)
    (g5 : np + lf ≤ new.length) (g6 : oldPos ≤ old.length) (g7 : newPos ≤ new.length)
    (hcf : cf ≤ i) (hcb : cb ≤ i)
    (hol' : old.length < 2^63) (hnl' : new.length < 2^63) :
    splitLoopW old new op np oldPos newPos lf lb ov n i cf cb best split =
      splitLoop old new (op + lf - ov) (np + lf - ov) (oldPos - lb) (newPos - lb) n i cf cb best
        split := by
  induction n generalizing i cf cb best split with
  | zero => rfl
  | succ n ih =>
    unfold splitLoopW splitLoop
    rw [add64_eq (a := op) (b := lf) (by omega), add64_eq (a := np) (b := lf) (by omega),
      sub64_eq (a := op + lf) (b := ov) (by omega) (by omega),
      sub64_eq (a := np + lf) (b := ov) (by omega) (by omega),
      sub64_eq (a := oldPos) (b := lb) (by omega) (by omega),
      sub64_eq (a := newPos) (b := lb) (by omega) (by omega),
      add64_eq (a := op + lf - ov) (b := i) (by omega),
      add64_eq (a := np + lf - ov) (b := i) (by omega),
      add64_eq (a := oldPos - lb) (b := i) (by omega),
      add64_eq (a := newPos - lb) (b := i) (by omega),
      rd_ok (by omega : op + lf - ov + i < old.length),
      rd_ok (by omega : np + lf - ov + i < new.length),
      rd_ok (by omega : oldPos - lb + i < old.length),
      rd_ok (by omega : newPos - lb + i < new.length)]
    simp only [Out.bind_ok]
    rw [add64_eq (a := i) (b := 1) (by omega), add64_eq (a := cf) (b := 1) (by omega),
      add64_eq (a := cb) (b := 1) (by omega)]
    generalize hcf' : (if old[op + lf - ov + i] = new[np + lf - ov + i] then cf + 1 else cf) = cf'
    generalize hcb' : (if old[oldPos - lb + i] = new[newPos - lb + i] then cb + 1 else cb) = cb'
    have e1 : cf' ≤ i + 1 := by rw [← hcf']; split <;> omega
    have e2 : cb' ≤ i + 1 := by rw [← hcb']; split <;> omega
    by_cases hlt : cf' > cb'
    · rw [sub64_eq (a := cf') (b := cb') (by omega) (by omega)]
      rw [ih (i + 1) cf' cb' (cf' - cb') (i + 1) (by omega) (by omega) (by omega) (by omega) e1 e2,
        ih (i + 1) cf' cb' best split (by omega) (by omega) (by omega) (by omega) e1 e2]
    · rw [if_neg (fun h => hlt h.1), if_neg (fun h => hlt h.1)]
      exact ih (i + 1) cf' cb' best split (by omega) (by omega) (by omega) (by omega) e1 e2

theorem lenForwardW_eq (old new : Bytes) (addblk : Bool) (op np newPos : Nat)
    (ho : op ≤ old.length) (hn : np ≤ newPos) (hnl : newPos ≤ new.length)
    (hol' : old.length < 2^63) (hnl' : new.length < 2^63) :
    lenForwardW old new addblk op np newPos = lenForward old new addblk op np newPos := by
  unfold lenForwardW lenForward
  simp only []
  rw [sub64_eq (a := old.length) (b := op) (by omega) (by omega),
    sub64_eq (a := newPos) (b := np) (by omega) (by omega),
    fwdAddW_eq old new op np _ 0 0 0 0 (by omega) (by omega) (by omega) (by omega) hol' hnl',
    fwdExactW_eq old new op np _ 0 (by omega) (by omega) hol' hnl']

theorem lenBackW_eq (old new : Bytes) (addblk : Bool) (oldPos newPos np : Nat)
    (ho : oldPos ≤ old.length) (hn : np ≤ newPos) (hnl : newPos ≤ new.length)
    (hol' : old.length < 2^63) (hnl' : new.length < 2^63) :
    lenBackW old new addblk oldPos newPos np = lenBack old new addblk oldPos newPos np := by
  unfold lenBackW lenBack
  rw [sub64_eq (a := newPos) (b := np) (by omega) (by omega),
    backAddW_eq old new oldPos newPos _ 1 0 0 0 (by omega) (by omega) (by omega) ho hnl (by omega)
      (by omega) hol' hnl']

theorem splitOverlapW_eq (old new : Bytes) (op np oldPos newPos lf lb : Nat)
    (h1 : op + lf ≤ old.length) (h2 : np + lf ≤ newPos) (h3 : lb ≤ oldPos) (h4 : lb ≤ newPos - np)
    (h5 : oldPos ≤ old.length) (h6 : newPos ≤ new.length)
    (hol' : old.length < 2^63) (hnl' : new.length < 2^63) :
    splitOverlapW old new op np oldPos newPos lf lb =
      splitOverlap old new op np oldPos newPos lf lb := by
  unfold splitOverlapW splitOverlap
  rw [add64_eq (a := np) (b := lf) (by omega), sub64_eq (a := newPos) (b := lb) (by omega) (by omega)]
  split
  · rename_i h
    rw [sub64_eq (a := np + lf) (b := newPos - lb) (by omega) (by omega)]
    simp only []
    rw [splitLoopW_eq old new op np oldPos newPos lf lb _ _ 0 0 0 0 0 (by omega) (by omega)
      (by omega) (by omega) (by omega) (by omega) (by omega) (by omega) (by omega) (by omega)
      (by omega) (by omega) (by omega) hol' hnl']
    obtain ⟨r, e, hr⟩ := splitLoop_ok old new (op + lf - ((np + lf) - (newPos - lb)))
      (np + lf - ((np + lf) - (newPos - lb))) (oldPos - lb) (newPos - lb) ((np + lf) - (newPos - lb)) 0 0 0 0 0
      (by omega) (by omega) (by omega) (by omega) (by omega)
    rw [e, Out.bind_ok, Out.bind_ok]
    rw [sub64_eq (a := np + lf - (newPos - lb)) (b := r) (by omega) (by omega),
      sub64_eq (a := lf) (by omega) (by omega), sub64_eq (a := lb) (b := r) (by omega) (by omega)]
  · rfl

theorem addBlockWritesW_eq (old new : Bytes) (fuel op np len : Nat)
    (ho : op + len ≤ old.length) (hn : np + len ≤ new.length)
    (hol' : old.length < 2^63) (hnl' : new.length < 2^63) :
    addBlockWritesW old new fuel op np len = addBlockWrites old new fuel op np len := by
  induction fuel generalizing op np len with
  | zero => rfl
  | succ fuel ih =>
    unfold addBlockWritesW addBlockWrites
    split
    · simp only []
      rw [add64_eq (a := op) (by omega), add64_eq (a := np) (by omega),
        sub64_eq (a := len) (by omega) (by omega), ih _ _ _ (by omega) (by omega)]
    · rfl

theorem diffStepW_eq (search : Nat → Nat → Out (Nat × Nat × Nat)) (old new : Bytes) (addblk : Bool)
    (hs : SearchOK old new search) (s : DiffSt) (hinv : DiffInv old new s)
    (hol' : old.length < 2^63) (hnl' : new.length < 2^63) :
    diffStepW search old new addblk s = diffStep search old new addblk s := by
  obtain ⟨i1, i2, i3⟩ := hinv
  obtain ⟨r, e, hr⟩ := hs (if addblk then sub64 s.oldPrev s.newPrev else old.length)
    (s.newPos + s.len) i3
  obtain ⟨newPos, oldPos, len⟩ := r
  have hb : s.newPrev ≤ newPos ∧ newPos + len ≤ new.length ∧ oldPos + len ≤ old.length := by
    rcases hr with h | ⟨h1, h2, h3, h4, _⟩
    · simp only [Prod.mk.injEq] at h
      obtain ⟨rfl, rfl, rfl⟩ := h
      refine ⟨by omega, by omega, by omega⟩
    · simp only at h1 h2 h3 h4
      exact ⟨by omega, by omega, by omega⟩
  obtain ⟨hb1, hb2, hb3⟩ := hb
  obtain ⟨lf, f1, f2, f3, f4⟩ := lenForward_ok old new addblk s.oldPrev s.newPrev newPos i1 hb1 (by omega)
  obtain ⟨lb, g1, g2, g3, g4, g5⟩ := lenBack_ok old new addblk oldPos newPos s.newPrev (by omega) (by omega)
  obtain ⟨lf', lb', k1, k2, k3, k4, k5⟩ := splitOverlap_ok old new s.oldPrev s.newPrev oldPos newPos lf lb
    f2 f3 g2 g3 (by omega) (by omega)
  have f1' := lenForwardW_eq old new addblk _ _ _ i1 hb1 (by omega) hol' hnl'
  have g1' := lenBackW_eq old new addblk _ _ _ (by omega : oldPos ≤ old.length) hb1 (by omega) hol' hnl'
  have k1' := splitOverlapW_eq old new s.oldPrev s.newPrev oldPos newPos lf lb f2 f3 g2 g3 (by omega)
    (by omega) hol' hnl'
  rw [f1] at f1'
  rw [g1] at g1'
  rw [k1] at k1'
  have n1 := add64_eq (a := s.newPos) (b := s.len) (by omega)
  have n2 := add64_eq (a := s.newPrev) (b := lf') (by omega)
  have n3 := sub64_eq (a := newPos) (b := lb') (by omega) (by omega)
  have n4 := sub64_eq (a := newPos - lb') (b := s.newPrev + lf') (by omega) (by omega)
  have n5 := sub64_eq (a := oldPos) (b := lb') (by omega) (by omega)
  have n6 := addBlockWritesW_eq old new lf' s.oldPrev s.newPrev lf' (by omega) (by omega) hol' hnl'
  have q : (s.oldPrev + 2^64 - s.newPrev) % 2^64 = sub64 s.oldPrev s.newPrev := by unfold sub64; rfl
  unfold diffStepW diffStep
  rw [q]
  generalize sub64 s.oldPrev s.newPrev = lo at e ⊢
  dsimp only
  rw [n1, e, Out.bind_ok, Out.bind_ok]
  dsimp only
  rw [f1', f1, Out.bind_ok, Out.bind_ok, g1', g1, Out.bind_ok, Out.bind_ok, k1', k1, Out.bind_ok,
    Out.bind_ok]
  dsimp only
  rw [n2, n3, n4, n5, n6]
  rfl

theorem diffLoopW_eq (search : Nat → Nat → Out (Nat × Nat × Nat)) (old new : Bytes) (addblk : Bool)
    (hs : SearchOK old new search) (fuel : Nat) (s : DiffSt) (hinv : DiffInv old new s)
    (hol' : old.length < 2^63) (hnl' : new.length < 2^63) :
    diffLoopW search old new addblk fuel s = diffLoop search old new addblk fuel s := by
  induction fuel generalizing s with
  | zero => rfl
  | succ fuel ih =>
    unfold diffLoopW diffLoop
    split
    · rw [diffStepW_eq search old new addblk hs s hinv hol' hnl']
      obtain ⟨c, adds, s', e, hi', _⟩ := diffStep_ok search old new addblk hs s hinv
      simp only [e, Out.bind_ok]
      rw [ih s' hi']
    · rfl

end Drpm
