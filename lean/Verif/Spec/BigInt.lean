import Verif.Spec
import Verif.Model.BigInt

/-!
# Specification of `BigInt` values
-/

namespace Hmath

/-- A well-formed `BigInt`: valid magnitude, and zero is not marked negative
(the code's `is_valid`, src/bigint.rs 49-51). -/
structure IValid (x : BigI) : Prop where
  mag : Valid x.mag
  sgn : x.neg = true → val x.mag ≠ 0

instance (x : BigI) : Decidable (IValid x) :=
  decidable_of_iff (Valid x.mag ∧ (x.neg = true → val x.mag ≠ 0))
    ⟨fun h => ⟨h.1, h.2⟩, fun h => ⟨h.mag, h.sgn⟩⟩

/-- The integer denoted by a `BigInt`. -/
def ival (x : BigI) : Int := if x.neg then -(val x.mag : Int) else (val x.mag : Int)

/-- The call terminates without panicking and returns the well-formed `BigInt`
whose value is `z`. -/
def ComputesI (m : M BigI) (z : Int) : Prop := ∃ c, m = pure c ∧ IValid c ∧ ival c = z

/-- `n` is an `i32`. -/
def IsI32 (n : Int) : Prop := -2147483648 ≤ n ∧ n ≤ 2147483647

end Hmath
