import Verif.Spec.Matrix
import Verif.Model.Poly
import Mathlib.Algebra.Polynomial.Basic

/-!
# Specification of `Polynomial` values
-/

namespace Hmath
open Polynomial

/-- The polynomial with the given coefficients, highest power first. -/
noncomputable def polyOf : List ℚ → ℚ[X]
  | [] => 0
  | c :: cs => C c * X ^ cs.length + polyOf cs

/-- The polynomial denoted by a `Polynomial` value. -/
noncomputable def pval (p : Poly) : ℚ[X] := polyOf (p.coeffs.map rval)

/-- All coefficients are well-formed. -/
def PValid (p : Poly) : Prop := ∀ x ∈ p.coeffs, RValid x

instance (p : Poly) : Decidable (PValid p) := by unfold PValid; infer_instance

/-- At least one coefficient and no superfluous leading zero. -/
def PNormal (p : Poly) : Prop :=
  p.coeffs ≠ [] ∧ (2 ≤ p.coeffs.length → ∀ x, p.coeffs.head? = some x → rval x ≠ 0)

/-- The call returns the well-formed, normalised polynomial value that denotes `f`. -/
def ComputesP (m : M Poly) (f : ℚ[X]) : Prop :=
  ∃ q, m = pure q ∧ PValid q ∧ PNormal q ∧ pval q = f

end Hmath
