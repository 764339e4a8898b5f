import Verif.Spec.BigInt
import Verif.Model.Ratio
import Mathlib.Data.Rat.Defs
import Mathlib.Algebra.Field.Rat

/-!
# Specification of `Ratio` values
-/

namespace Hmath

/-- A well-formed `Ratio`: positive denominator, numerator and denominator coprime (so zero is
`0/1`; the code's `is_valid`, src/ratio.rs 79-81). -/
structure RValid (x : Ratio) : Prop where
  denom : IValid x.denom
  numer : IValid x.numer
  pos : 0 < ival x.denom
  coprime : Int.gcd (ival x.numer) (ival x.denom) = 1

instance (x : Ratio) : Decidable (RValid x) :=
  decidable_of_iff (IValid x.denom ∧ IValid x.numer ∧ 0 < ival x.denom ∧
    Int.gcd (ival x.numer) (ival x.denom) = 1)
    ⟨fun h => ⟨h.1, h.2.1, h.2.2.1, h.2.2.2⟩, fun h => ⟨h.denom, h.numer, h.pos, h.coprime⟩⟩

/-- The rational number denoted by a `Ratio`. -/
def rval (x : Ratio) : ℚ := (ival x.numer : ℚ) / (ival x.denom : ℚ)

/-- The call terminates without panicking and returns the well-formed `Ratio` with value `q`. -/
def ComputesR (m : M Ratio) (q : ℚ) : Prop := ∃ c, m = pure c ∧ RValid c ∧ rval c = q

end Hmath
