import Verif.Spec.Ratio
import Verif.Model.Matrix
import Mathlib.LinearAlgebra.Matrix.Defs

/-!
# Specification of `Matrix` values
-/

namespace Hmath

/-- A well-formed `Matrix`: the stored dimensions are the real ones and every entry is a
well-formed `Ratio`. -/
structure MValid (A : Mat) : Prop where
  rows : A.data.length = A.rows
  cols : ∀ r ∈ A.data, r.length = A.cols
  entries : ∀ r ∈ A.data, ∀ x ∈ r, RValid x

instance (A : Mat) : Decidable (MValid A) :=
  decidable_of_iff (A.data.length = A.rows ∧ (∀ r ∈ A.data, r.length = A.cols) ∧
    ∀ r ∈ A.data, ∀ x ∈ r, RValid x)
    ⟨fun h => ⟨h.1, h.2.1, h.2.2⟩, fun h => ⟨h.rows, h.cols, h.entries⟩⟩

/-- The entry in row `i`, column `j` (counted from 0). -/
def entry (A : Mat) (i j : Nat) : ℚ := rval ((A.data.getD i []).getD j Ratio.zero)

/-- `A` is a well-formed `r × c` matrix that denotes `B`. -/
structure IsMat {r c : Nat} (A : Mat) (B : Matrix (Fin r) (Fin c) ℚ) : Prop where
  valid : MValid A
  rows : A.rows = r
  cols : A.cols = c
  val : ∀ (i : Fin r) (j : Fin c), entry A i j = B i j

/-- The call returns `Ok` of a well-formed matrix that denotes `B`. -/
def ComputesMat {r c : Nat} (m : M (Except MatErr Mat)) (B : Matrix (Fin r) (Fin c) ℚ) : Prop :=
  ∃ C, m = pure (.ok C) ∧ IsMat C B

/-- The call returns a well-formed matrix that denotes `B`. -/
def ComputesMat' {r c : Nat} (m : M Mat) (B : Matrix (Fin r) (Fin c) ℚ) : Prop :=
  ∃ C, m = pure C ∧ IsMat C B

end Hmath
