import Verif.Prim

/-!
# Signed 32-bit counters
-/

namespace Hmath

/-- `n as i32` for an unsigned `n` -/
def asI32 (n : Nat) : Int := ((n : Int) + 2147483648) % 4294967296 - 2147483648

/-- checked addition of `i32` values -/
def i32Add (a b : Int) : M Int :=
  if -2147483648 ≤ a + b ∧ a + b ≤ 2147483647 then pure (a + b) else throw .overflow

end Hmath
