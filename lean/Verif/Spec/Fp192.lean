import Verif.Model.Fp192
import Mathlib.Data.Rat.Defs
import Mathlib.Algebra.Order.Field.Rat
import Mathlib.Algebra.Field.Rat

/-!
# Specification of 192-bit floating point numbers

The representation documented in src/fp192.rs 12-24: `N = D * 2^E` with `2^127 ≤ D < 2^128`, all zero bits for
zero.
-/

namespace Hmath

/-- the fields fit their types -/
def FValid (x : F192) : Prop := x.digits < 2 ^ 128 ∧ x.exp < 2 ^ 64

instance (x : F192) : Decidable (FValid x) := by unfold FValid; infer_instance

/-- the number represented by a bit pattern -/
def fval (x : F192) : ℚ :=
  if x.digits = 0 ∧ x.exp = 0 then 0
  else (if 2 ^ 127 ≤ x.digits then -1 else 1) * ((2 ^ 127 + x.digits % 2 ^ 127 : Nat) : ℚ) *
    2 ^ ((x.exp : ℤ) - 2 ^ 48)

end Hmath
