import Mathlib.Algebra.BigOperators.Group.Finset.Basic
import Mathlib.Algebra.Field.Rat
import Mathlib.Data.Nat.Factorial.Basic

/-!
# The partial sums that the iterative functions are documented to compute
-/

namespace Hmath
open Finset Nat

/-- the first `n` terms of `e^y = Σ y^i / i!` -/
def expSum (n : Nat) (y : ℚ) : ℚ := ∑ i ∈ range n, y ^ i / (i ! : ℚ)

/-- the first `n` terms of the Bailey–Borwein–Plouffe series of pi -/
def bbpSum (n : Nat) : ℚ := ∑ k ∈ range n,
  (4 / (8 * k + 1) - 2 / (8 * k + 4) - 1 / (8 * k + 5) - 1 / (8 * k + 6)) / 16 ^ k

/-- the first `n` terms of `ln 2 = Σ 1 / (i 2^i)` -/
def ln2Sum (n : Nat) : ℚ := ∑ i ∈ range n, 1 / ((i + 1) * 2 ^ (i + 1))

/-- the first `n` terms of the Taylor series of the sine -/
def sinSum (n : Nat) (y : ℚ) : ℚ := ∑ j ∈ range n, (-1) ^ j * y ^ (2 * j + 1) / ((2 * j + 1)! : ℚ)

/-- the first `n` terms of the Taylor series of the cosine -/
def cosSum (n : Nat) (y : ℚ) : ℚ := ∑ j ∈ range n, (-1) ^ j * y ^ (2 * j) / ((2 * j)! : ℚ)

/-- the first `n` terms of `ln (1 + a) = a - a²/2 + a³/3 - …` -/
def logSum (n : Nat) (a : ℚ) : ℚ := ∑ j ∈ range n, (-1) ^ j * a ^ (j + 1) / (j + 1)

/-- the first `n` terms of `atan y = y - y³/3 + y⁵/5 - …` -/
def atanSum (n : Nat) (y : ℚ) : ℚ := ∑ j ∈ range n, (-1) ^ j * y ^ (2 * j + 1) / (2 * j + 1)

/-- the first `n` terms of the power series of the arc sine -/
def asinSum (n : Nat) (y : ℚ) : ℚ := ∑ j ∈ range n,
  ((2 * j)! : ℚ) / (4 ^ j * (j ! : ℚ) ^ 2 * (2 * j + 1)) * y ^ (2 * j + 1)

/-- `sin (m·π/2 + u)` in terms of `s = sin u` and `c = cos u` -/
def quarter (m : ℤ) (s c : ℚ) : ℚ :=
  if m % 4 = 0 then s else if m % 4 = 1 then c else if m % 4 = 2 then -s else -c

end Hmath
