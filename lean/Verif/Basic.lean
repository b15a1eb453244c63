/-!
# Outcomes of a C function, and machine arithmetic

The outcome type shared by all model functions.  It separates a normal return, a
`DRPM_ERR_*` return, undefined behaviour and non-termination.
-/

namespace Drpm

/-- `DRPM_ERR_*`, src/drpm.h (error codes 1..10; 0 is success and is `Out.ok` here). -/
inductive Err where
  | memory | args | io | format | config | other | overflow | prog | mismatch | noinstall
deriving DecidableEq, Repr

/-- The integer returned by the C API for an error, src/drpm.h `DRPM_ERR_MEMORY`... -/
def Err.code : Err → Nat
  | .memory => 1 | .args => 2 | .io => 3 | .format => 4 | .config => 5 | .other => 6
  | .overflow => 7 | .prog => 8 | .mismatch => 9 | .noinstall => 10

/-- Outcome of running a C function: a value, an error code, undefined behaviour, or
    (only for fuelled loops) not having finished within the fuel. -/
inductive Out (α : Type u) where
  | ok (a : α)
  | err (e : Err)
  | ub
  | loop
deriving DecidableEq, Repr

namespace Out

/-- The outcome is a success whose value satisfies `p` (used to state examples). -/
def okAnd (x : Out α) (p : α → Bool) : Bool :=
  match x with
  | .ok a => p a
  | _ => false

/-- Sequencing: errors, undefined behaviour and divergence propagate. -/
@[inline] def bind {α : Type u} {β : Type v} (x : Out α) (f : α → Out β) : Out β :=
  match x with
  | ok a => f a
  | err e => err e
  | ub => ub
  | loop => loop

instance : Monad Out where
  pure := ok
  bind := bind

instance : LawfulMonad Out := LawfulMonad.mk'
  (id_map := by intro α x; cases x <;> rfl)
  (pure_bind := by intros; rfl)
  (bind_assoc := by intro α β γ x f g; cases x <;> rfl)

@[simp] theorem pure_eq (a : α) : (pure a : Out α) = ok a := rfl
@[simp] theorem bind_ok (a : α) (f : α → Out β) : (ok a >>= f) = f a := rfl
@[simp] theorem bind_err (e : Err) (f : α → Out β) : ((err e : Out α) >>= f) = err e := rfl
@[simp] theorem bind_ub (f : α → Out β) : ((ub : Out α) >>= f) = ub := rfl
@[simp] theorem bind_loop (f : α → Out β) : ((loop : Out α) >>= f) = loop := rfl

/-- A bind succeeds exactly if both parts do. -/
theorem bind_eq_ok {x : Out α} {f : α → Out β} {b : β} :
    (x >>= f) = ok b ↔ ∃ a, x = ok a ∧ f a = ok b := by
  cases x <;> simp

/-- A bind is undefined exactly if one of the parts executed is. -/
theorem bind_eq_ub {x : Out α} {f : α → Out β} :
    (x >>= f) = ub ↔ x = ub ∨ ∃ a, x = ok a ∧ f a = ub := by
  cases x <;> simp

/-- The outcome is defined behaviour and finishes. -/
def Defined (x : Out α) : Prop := x ≠ ub ∧ x ≠ loop

instance (x : Out α) : Decidable (Defined x) := by
  cases x
  · exact isTrue ⟨nofun, nofun⟩
  · exact isTrue ⟨nofun, nofun⟩
  · exact isFalse (fun h => h.1 rfl)
  · exact isFalse (fun h => h.2 rfl)

@[simp] theorem defined_ok (a : α) : (ok a).Defined := ⟨nofun, nofun⟩
@[simp] theorem defined_err (e : Err) : (err e : Out α).Defined := ⟨nofun, nofun⟩
@[simp] theorem not_defined_ub : ¬ (ub : Out α).Defined := fun h => h.1 rfl
@[simp] theorem not_defined_loop : ¬ (loop : Out α).Defined := fun h => h.2 rfl

theorem Defined.bind {x : Out α} {f : α → Out β} (hx : x.Defined)
    (hf : ∀ a, x = ok a → (f a).Defined) : (x >>= f).Defined := by
  cases x with
  | ok a => exact hf a rfl
  | err e => simp
  | ub => exact absurd rfl hx.1
  | loop => exact absurd rfl hx.2

end Out

abbrev Bytes := List UInt8

/-- A bounds-checked array read; outside the array it is undefined behaviour. -/
def rd {α : Type u} (a : List α) (i : Nat) : Out α :=
  match a[i]? with
  | some x => .ok x
  | none => .ub

theorem rd_ok {a : List α} {i : Nat} (h : i < a.length) : rd a i = .ok a[i] := by
  simp [rd, List.getElem?_eq_getElem h]

theorem rd_eq_ok {a : List α} {i : Nat} {x : α} : rd a i = .ok x ↔ a[i]? = some x := by
  unfold rd; split <;> simp_all

theorem rd_ub {a : List α} {i : Nat} (h : a.length ≤ i) : rd a i = .ub := by
  simp [rd, List.getElem?_eq_none h]

/-- A bounds-checked block read of `n` elements at `i` (`memcpy`, `memcmp` operands). -/
def rdBlk {α : Type u} (a : List α) (i n : Nat) : Out (List α) :=
  if i + n ≤ a.length then .ok ((a.drop i).take n) else .ub

/-- The bytes of `a` from `i`, `n` of them (specification of a slice). -/
def slice {α : Type u} (a : List α) (i n : Nat) : List α := (a.drop i).take n

theorem rdBlk_ok {a : List α} {i n : Nat} (h : i + n ≤ a.length) :
    rdBlk a i n = .ok (slice a i n) := by simp [rdBlk, slice, h]

theorem slice_length {a : List α} {i n : Nat} (h : i + n ≤ a.length) : (slice a i n).length = n := by
  simp [slice]; omega

theorem slice_append_slice (a : List α) (i n m : Nat) :
    slice a i n ++ slice a (i + n) m = slice a i (n + m) := by
  simp only [slice]
  rw [List.take_add, List.drop_drop]

@[simp] theorem slice_zero (a : List α) (i : Nat) : slice a i 0 = [] := by simp [slice]

theorem slice_all (a : List α) : slice a 0 a.length = a := by simp [slice]

theorem take_append_slice (a : List α) (i n : Nat) : a.take i ++ slice a i n = a.take (i + n) := by
  simp [slice, List.take_add]

theorem slice_getElem? (a : List α) (i n j : Nat) :
    (slice a i n)[j]? = if j < n then a[i + j]? else none := by
  simp only [slice, List.getElem?_take, List.getElem?_drop]

theorem slice_slice (a : List α) (i n j m : Nat) (h : j + m ≤ n) :
    slice (slice a i n) j m = slice a (i + j) m := by
  apply List.ext_getElem?
  intro k
  simp only [slice_getElem?]
  split
  · rw [if_pos (by omega)]; congr 1; omega
  · rfl

/-- `(int32_t)x` for a `uint32_t`/`size_t` value: the low 32 bits read as two's complement. -/
def s32 (n : Nat) : Int :=
  if n % 2^32 < 2^31 then ((n % 2^32 : Nat) : Int) else ((n % 2^32 : Nat) : Int) - 2^32

/-- Conversion of a signed value to `uint32_t`. -/
def u32OfInt (i : Int) : Nat := (i % 2^32).toNat

/-- Conversion of a signed value to `size_t`/`uint64_t`. -/
def u64OfInt (i : Int) : Nat := (i % 2^64).toNat

end Drpm
