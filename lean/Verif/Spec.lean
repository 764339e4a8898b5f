import Mathlib.Data.Nat.Digits.Defs
import Verif.Prim

/-!
# Specification of `UBigInt` values

Independent of the model functions: which limb vectors are numbers, and which
natural number they stand for.
-/

namespace Hmath

/-- The natural number denoted by a limb vector (base `2^32`, least significant
limb first). -/
def val (l : List Nat) : Nat := Nat.ofDigits B32 l

/-- A well-formed `UBigInt`: nonempty, limbs are `u32`s, no leading zero limb
(the code's `is_valid`, src/ubigint.rs 40-52). -/
structure Valid (a : List Nat) : Prop where
  ne : a ≠ []
  limbs : ∀ d ∈ a, d < B32
  top : a.length > 1 → a.getLast? ≠ some 0

instance (a : List Nat) : Decidable (Valid a) :=
  decidable_of_iff (a ≠ [] ∧ (∀ d ∈ a, d < B32) ∧ (a.length > 1 → a.getLast? ≠ some 0))
    ⟨fun h => ⟨h.1, h.2.1, h.2.2⟩, fun h => ⟨h.ne, h.limbs, h.top⟩⟩

/-- The call terminates without panicking and returns the well-formed `UBigInt`
whose value is `n`. -/
def Computes (m : M (List Nat)) (n : Nat) : Prop :=
  ∃ c, m = pure c ∧ Valid c ∧ val c = n

end Hmath
