import Mathlib.Order.Basic

/-!
# Execution monad and machine integers

`M α` is the type of outcomes of a Rust call returning `α`:
* `pure a` – returns `a`;
* `throw p` – panics;
* `none` – does not terminate.

Machine integers are natural numbers / integers together with *checked*
operations that panic on overflow (debug profile of rustc).
-/

namespace Hmath

/-- Reasons for a Rust panic. -/
inductive Panic where
  /-- arithmetic overflow of a machine integer (incl. oversized shift amounts) -/
  | overflow
  /-- slice / vector index out of bounds -/
  | index
  /-- machine integer division by zero -/
  | divZero
  /-- `unwrap`/`expect` on `None`/`Err` -/
  | unwrap
  /-- explicit `panic!` -/
  | explicit
  /-- `unreachable!` / `todo!` -/
  | unreachable
  deriving DecidableEq, Repr

/-- `crate::ConversionError` (src/err.rs); the textual payloads of the Rust
variants are dropped, except the offending character of `InvalidChar`. -/
inductive ConvErr where
  | noData
  | invalidChar (c : Char)
  | notInRange
  | unexpectedEnd
  | notANumber
  | infinity
  | negInfinity
  | tryFromInt
  deriving DecidableEq, Repr

/-- Outcome of a Rust call. -/
abbrev M := ExceptT Panic Option

/-- the call returns `a` -/
abbrev ret {α : Type _} (a : α) : M α := pure a

/-- `2^32` -/
scoped notation "B32" => (4294967296 : Nat)
/-- `2^64` -/
scoped notation "B64" => (18446744073709551616 : Nat)
/-- `2^128` -/
scoped notation "B128" => (340282366920938463463374607431768211456 : Nat)
/-- `u32::MAX` -/
scoped notation "U32MAX" => (4294967295 : Nat)
/-- `u64::MAX` -/
scoped notation "U64MAX" => (18446744073709551615 : Nat)

/-- checked addition in an unsigned type with `w` values -/
def uAdd (w a b : Nat) : M Nat := if a + b < w then pure (a + b) else throw .overflow
/-- checked multiplication in an unsigned type with `w` values -/
def uMul (w a b : Nat) : M Nat := if a * b < w then pure (a * b) else throw .overflow
/-- checked subtraction in any unsigned type -/
def uSub (a b : Nat) : M Nat := if b ≤ a then pure (a - b) else throw .overflow
/-- division in any unsigned type -/
def uDiv (a b : Nat) : M Nat := if b = 0 then throw .divZero else pure (a / b)
/-- remainder in any unsigned type -/
def uRem (a b : Nat) : M Nat := if b = 0 then throw .divZero else pure (a % b)

abbrev u32Add := uAdd B32
abbrev u64Add := uAdd B64
abbrev u128Add := uAdd B128
abbrev u32Mul := uMul B32
abbrev u64Mul := uMul B64
abbrev u128Mul := uMul B128

/-- `x << k` in an unsigned type with `2^bits` values: bits shifted out are
lost, a shift amount `≥ bits` panics. -/
def uShl (bits x k : Nat) : M Nat :=
  if k < bits then pure (x * 2 ^ k % 2 ^ bits) else throw .overflow
/-- `x >> k` in an unsigned type with `bits` bits. -/
def uShr (bits x k : Nat) : M Nat :=
  if k < bits then pure (x / 2 ^ k) else throw .overflow

/-- `v[i]` -/
def idx {α : Type} (l : List α) (i : Nat) : M α :=
  match l[i]? with
  | some x => pure x
  | none => throw .index

/-- `v[s..e].to_vec()` -/
def slice {α : Type} (l : List α) (s e : Nat) : M (List α) :=
  if s ≤ e ∧ e ≤ l.length then pure ((l.take e).drop s) else throw .index

/-- `Result::unwrap` -/
def unwrapR {ε α : Type} : Except ε α → M α
  | .ok a => pure a
  | .error _ => throw .unwrap

/-- `Option::unwrap` / `expect` -/
def unwrapO {α : Type} : Option α → M α
  | some a => pure a
  | none => throw .unwrap

section lemmas
variable {w a b : Nat}

theorem uAdd_eq (h : a + b < w) : uAdd w a b = pure (a + b) := if_pos h
theorem uMul_eq (h : a * b < w) : uMul w a b = pure (a * b) := if_pos h
theorem uSub_eq (h : b ≤ a) : uSub a b = pure (a - b) := if_pos h
theorem uDiv_eq (h : b ≠ 0) : uDiv a b = pure (a / b) := if_neg h
theorem uRem_eq (h : b ≠ 0) : uRem a b = pure (a % b) := if_neg h
theorem uShl_eq {bits : Nat} (h : b < bits) : uShl bits a b = pure (a * 2 ^ b % 2 ^ bits) :=
  if_pos h
theorem uShr_eq {bits : Nat} (h : b < bits) : uShr bits a b = pure (a / 2 ^ b) := if_pos h

theorem idx_eq {α : Type} {l : List α} {i : Nat} (h : i < l.length) : idx l i = pure l[i] := by
  simp [idx, h]

theorem idx_some {α : Type} {l : List α} {i : Nat} {x : α} (h : l[i]? = some x) :
    idx l i = pure x := by
  simp [idx, h]

@[simp] theorem idx_zero_cons {α : Type} {x : α} {l : List α} : idx (x :: l) 0 = pure x := rfl
@[simp] theorem unwrapR_ok {ε α : Type} {x : α} : unwrapR (.ok x : Except ε α) = pure x := rfl
@[simp] theorem unwrapO_some {α : Type} {x : α} : unwrapO (some x) = pure x := rfl

theorem slice_eq {α : Type} {l : List α} {s e : Nat} (h : s ≤ e) (h' : e ≤ l.length) :
    slice l s e = pure ((l.take e).drop s) := if_pos ⟨h, h'⟩

theorem pure_ne_throw {α : Type} {x : α} {p : Panic} : (pure x : M α) ≠ throw p := by
  intro h; cases h

theorem pure_inj' {α : Type} {x y : α} : (pure x : M α) = pure y ↔ x = y :=
  ⟨fun h => by cases h; rfl, fun h => by rw [h]⟩

theorem throw_bind' {α β : Type} (p : Panic) (f : α → M β) :
    ((throw p : M α) >>= f) = throw p := rfl

end lemmas

/-- the call panics -/
def Panics {α : Type} (m : M α) : Prop := ∃ p, m = throw p

/-- the call returns some value -/
def Returns {α : Type} (m : M α) : Prop := ∃ a, m = pure a

theorem not_returns_of_panics {α : Type} {m : M α} (h : Panics m) : ¬ Returns m := by
  rintro ⟨a, ha⟩; obtain ⟨p, hp⟩ := h; rw [hp] at ha; exact pure_ne_throw ha.symm

end Hmath
